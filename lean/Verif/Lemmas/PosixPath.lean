import Verif.Lemmas.PathEsc
import Verif.Spec.Path
import Verif.Props.PathEsc
namespace HS
open Spec

theorem splitSlash_ne_nil (s : Str) : splitSlash s ≠ [] := by
  cases s with
  | nil => simp [splitSlash]
  | cons c r =>
    simp only [splitSlash]
    split
    · simp
    · split <;> simp

theorem splitSlash_cons_slash (r : Str) : splitSlash (slash :: r) = [] :: splitSlash r := by
  simp [splitSlash]

theorem splitSlash_cons_ne (c : Nat) (r : Str) (h : c ≠ slash) :
    ∃ x xs, splitSlash r = x :: xs ∧ splitSlash (c :: r) = (c :: x) :: xs := by
  cases hs : splitSlash r with
  | nil => exact absurd hs (splitSlash_ne_nil r)
  | cons x xs => exact ⟨x, xs, rfl, by simp [splitSlash, h, hs]⟩

theorem splitSlash_append (a b : Str) : splitSlash (a ++ slash :: b) = splitSlash a ++ splitSlash b := by
  induction a with
  | nil => simp [splitSlash]
  | cons c a ih =>
    by_cases h : c = slash
    · subst h; simp [splitSlash_cons_slash, ih]
    · obtain ⟨x, xs, h1, h2⟩ := splitSlash_cons_ne c a h
      rw [List.cons_append]
      obtain ⟨y, ys, h3, h4⟩ := splitSlash_cons_ne c (a ++ slash :: b) h
      rw [h4, h2]
      rw [ih, h1] at h3
      simp at h3
      simp [h3]

theorem splitSlash_free (s : Str) (h : slash ∉ s) : splitSlash s = [s] := by
  induction s with
  | nil => rfl
  | cons c s ih =>
    simp only [List.mem_cons, not_or] at h
    obtain ⟨x, xs, h1, h2⟩ := splitSlash_cons_ne c s (Ne.symm h.1)
    rw [ih h.2] at h1
    simp at h1
    rw [h2]; simp [h1]

theorem splitSlash_mem_free (s x : Str) (h : x ∈ splitSlash s) : slash ∉ x := by
  induction s generalizing x with
  | nil => simp [splitSlash] at h; simp [h]
  | cons c s ih =>
    by_cases hc : c = slash
    · subst hc
      rw [splitSlash_cons_slash] at h
      rcases List.mem_cons.mp h with rfl | h
      · simp
      · exact ih x h
    · obtain ⟨y, ys, h1, h2⟩ := splitSlash_cons_ne c s hc
      rw [h2] at h
      rcases List.mem_cons.mp h with rfl | h
      · have := ih y (by simp [h1])
        simp [this, Ne.symm hc]
      · exact ih x (by simp [h1, h])

theorem joinSlash_splitSlash (s : Str) : joinSlash (splitSlash s) = s := by
  induction s with
  | nil => rfl
  | cons c s ih =>
    by_cases hc : c = slash
    · subst hc
      rw [splitSlash_cons_slash]
      cases h : splitSlash s with
      | nil => exact absurd h (splitSlash_ne_nil s)
      | cons x xs => rw [joinSlash, ← h, ih]; rfl; simp
    · obtain ⟨y, ys, h1, h2⟩ := splitSlash_cons_ne c s hc
      rw [h2]
      rw [h1] at ih
      cases ys with
      | nil => simp [joinSlash] at ih ⊢; exact ih
      | cons z zs => simp [joinSlash] at ih ⊢; exact ih

theorem splitSlash_join (xs : List Str) (hne : xs ≠ []) (h : ∀ x ∈ xs, slash ∉ x) :
    splitSlash (joinSlash xs) = xs := by
  induction xs with
  | nil => exact absurd rfl hne
  | cons x xs ih =>
    cases xs with
    | nil => simp [joinSlash, splitSlash_free x (h x (by simp))]
    | cons y ys =>
      rw [joinSlash, splitSlash_append, splitSlash_free x (h x (by simp)),
        ih (by simp) (fun x hx => h x (by simp [hx]))]
      · rfl
      · simp

theorem hdf5Names_cons_slash (r : Str) : hdf5Names (slash :: r) = hdf5Names r := by
  simp [hdf5Names, splitSlash_cons_slash]

theorem hdf5Names_append (a b : Str) : hdf5Names (a ++ slash :: b) = hdf5Names a ++ hdf5Names b := by
  simp [hdf5Names, splitSlash_append]

theorem hdf5Names_name (x : Str) (h : IsName x) : hdf5Names x = [x] := by
  simp only [hdf5Names, splitSlash_free x h.2.1]
  have := h.1; have := h.2.2
  simp_all

theorem hdf5Names_nil : hdf5Names [] = [] := rfl

theorem hdf5Names_replicate (n : Nat) (r : Str) : hdf5Names (List.replicate n slash ++ r) = hdf5Names r := by
  induction n with
  | zero => rfl
  | succ n ih => rw [List.replicate_succ, List.cons_append, hdf5Names_cons_slash, ih]

theorem hdf5Names_join (xs : List Str) (h : ∀ x ∈ xs, IsName x) : hdf5Names (joinSlash xs) = xs := by
  cases hx : xs with
  | nil => rfl
  | cons y ys =>
    rw [← hx, hdf5Names, splitSlash_join _ (by simp [hx]) (fun x hx => (h x hx).2.1)]
    rw [List.filter_eq_self]
    intro x hx
    have := h x hx
    simp only [IsName] at this
    simp [this]

theorem hdf5Names_isName (p x : Str) (h : x ∈ hdf5Names p) : IsName x := by
  simp only [hdf5Names, List.mem_filter, decide_eq_true_eq] at h
  exact ⟨h.2.1, splitSlash_mem_free _ _ h.1, h.2.2⟩

/-! ### normpath -/

theorem dotdot_isName (abs : Bool) (r : List Str) : ∀ done, (∀ x ∈ done, IsName x) → (∀ x ∈ r, IsName x) →
    ∀ x ∈ dotdot abs done r, IsName x := by
  induction r with
  | nil => intro done h _; simpa [dotdot] using h
  | cons c r ih =>
    intro done h hr
    have hr' : ∀ x ∈ r, IsName x := fun x hx => hr x (by simp [hx])
    have happ : ∀ x ∈ done ++ [c], IsName x := by
      intro x hx
      rcases List.mem_append.mp hx with hx | hx
      · exact h x hx
      · exact hr x (by simp at hx; simp [hx])
    simp only [dotdot]
    split
    · split
      · split
        · exact ih [] (by simp) hr'
        · exact ih [c] (by intro x hx; simp at hx; exact hr x (by simp [hx])) hr'
      · split
        · exact ih _ happ hr'
        · exact ih _ (fun x hx => h x (List.dropLast_subset _ hx)) hr'
    · exact ih _ happ hr'

theorem foldl_normStep (abs : Bool) (l : List Str) : ∀ acc : List Str,
    l.foldl (normStep abs) acc = (dotdot abs acc.reverse (l.filter (fun c => c ≠ [] ∧ c ≠ [46]))).reverse := by
  induction l with
  | nil => intro acc; simp [dotdot]
  | cons c l ih =>
    intro acc
    rw [List.foldl_cons, ih]
    by_cases h0 : c = [] ∨ c = [46]
    · have : normStep abs acc c = acc := by simp [normStep, h0]
      rw [this, List.filter_cons_of_neg]
      rcases h0 with rfl | rfl <;> simp
    · have hc : c ≠ [] ∧ c ≠ [46] := by simpa using h0
      rw [List.filter_cons_of_pos (by simpa using hc)]
      simp only [dotdot]
      by_cases h2 : c = [46, 46]
      · subst h2
        simp only [if_true]
        cases acc with
        | nil =>
          cases abs <;> simp [normStep, dot]
        | cons a acc =>
          by_cases ha : a = [46, 46]
          · subst ha; simp [normStep, dot]
          · simp [normStep, dot, ha]
      · simp [h2, normStep, hc, dot]

theorem initialSlashes_lead (p : Str) : List.replicate (initialSlashes p) slash = lead p := by
  unfold initialSlashes lead
  split
  · simp
  · rename_i r h
    have : r.takeWhile (· == 47) = [] := by
      cases r with
      | nil => rfl
      | cons c r =>
        by_cases hc : c = 47
        · subst hc; exact absurd rfl (h _)
        · simp [hc]
    simp [this]
  · rename_i r h1 h2
    cases r with
    | nil => rfl
    | cons c r =>
      by_cases hc : c = 47
      · subst hc; exact absurd rfl (h2 _)
      · simp [hc]
  · rename_i h1 h2 h3
    cases p with
    | nil => rfl
    | cons c r =>
      by_cases hc : c = 47
      · subst hc; exact absurd rfl (h3 _)
      · simp [hc]

theorem initialSlashes_pos (p : Str) : (initialSlashes p != 0) = (p.head? == some 47) := by
  unfold initialSlashes
  split <;> try rfl
  rename_i h1 h2 h3
  cases p with
  | nil => rfl
  | cons c r =>
    by_cases hc : c = 47
    · subst hc; exact absurd rfl (h3 _)
    · simp [hc]

theorem normpath_eq (p : Str) : normpath p =
    if lead p ++ joinSlash (names p) = [] then [46] else lead p ++ joinSlash (names p) := by
  unfold normpath
  split
  · rename_i h; subst h; rfl
  · simp only [initialSlashes_lead, initialSlashes_pos, foldl_normStep, List.reverse_nil, List.reverse_reverse]
    rfl

theorem names_isName (p : Str) : ∀ x ∈ names p, IsName x :=
  dotdot_isName _ _ _ (by simp) (fun x hx => hdf5Names_isName p x hx)

theorem joinSlash_concat (xs : List Str) (x : Str) (h : xs ≠ []) :
    joinSlash (xs ++ [x]) = joinSlash xs ++ slash :: x := by
  induction xs with
  | nil => exact absurd rfl h
  | cons y ys ih =>
    cases ys with
    | nil => rfl
    | cons z zs =>
      have h1 : joinSlash (y :: z :: zs ++ [x]) = y ++ slash :: joinSlash (z :: zs ++ [x]) := rfl
      have h2 : joinSlash (y :: z :: zs) = y ++ slash :: joinSlash (z :: zs) := rfl
      rw [h1, ih (by simp), h2]
      simp

theorem joinSlash_ne_nil (xs : List Str) (hne : xs ≠ []) (h : ∀ x ∈ xs, x ≠ []) : joinSlash xs ≠ [] := by
  cases xs with
  | nil => exact absurd rfl hne
  | cons y ys =>
    have := h y (by simp)
    cases ys <;> simp [joinSlash, this]

theorem joinSlash_last (xs : List Str) (hne : xs ≠ []) (h : ∀ x ∈ xs, IsName x) :
    ∃ c, (joinSlash xs).getLast? = some c ∧ c ≠ slash := by
  obtain ⟨ys, y, rfl⟩ : ∃ ys y, xs = ys ++ [y] := ⟨_, _, (List.dropLast_concat_getLast hne).symm⟩
  have hy := h y (by simp)
  have hl : ∃ c, y.getLast? = some c ∧ c ≠ slash := by
    refine ⟨y.getLast hy.1, List.getLast?_eq_some_getLast hy.1, ?_⟩
    intro hc
    exact hy.2.1 (hc ▸ List.getLast_mem hy.1)
  obtain ⟨c, hc, hs⟩ := hl
  refine ⟨c, ?_, hs⟩
  by_cases hys : ys = []
  · subst hys; simpa [joinSlash] using hc
  · rw [joinSlash_concat _ _ hys]
    rw [List.getLast?_append]
    have : (slash :: y).getLast? = some c := by
      rw [List.getLast?_cons, hc]; rfl
    rw [this]; rfl

theorem takeWhile_append_stop {α} (p : α → Bool) (a b : List α) (c : α) (h : ∀ x ∈ a, p x) (hc : p c = false) :
    (a ++ c :: b).takeWhile p = a ∧ (a ++ c :: b).dropWhile p = c :: b := by
  induction a with
  | nil => simp [hc]
  | cons x a ih =>
    have := ih (fun x hx => h x (by simp [hx]))
    simp [h x (by simp), this]

theorem takeWhile_all {α} (p : α → Bool) (a : List α) (h : ∀ x ∈ a, p x) :
    a.takeWhile p = a ∧ a.dropWhile p = [] := by
  induction a with
  | nil => simp
  | cons x a ih =>
    have := ih (fun x hx => h x (by simp [hx]))
    simp [h x (by simp), this]

theorem basename_slash (a x : Str) (h : slash ∉ x) : pBasename (a ++ slash :: x) = x := by
  unfold pBasename
  rw [List.reverse_append, List.reverse_cons, List.append_assoc, List.singleton_append]
  rw [(takeWhile_append_stop _ _ _ _ _ _).1]
  · simp
  · intro y hy
    have : y ∈ x := by simpa using hy
    have : y ≠ slash := fun hh => h (hh ▸ this)
    simpa using this
  · simp

theorem basename_free (x : Str) (h : slash ∉ x) : pBasename x = x := by
  unfold pBasename
  have : x.reverse.takeWhile (· != slash) = x.reverse := by
    apply (takeWhile_all _ _ _).1
    intro y hy
    have : y ∈ x := by simpa using hy
    have : y ≠ slash := fun hh => h (hh ▸ this)
    simpa using this
  rw [this]; simp

theorem dirname_free (x : Str) (h : slash ∉ x) : pDirname x = [] := by
  unfold pDirname
  have : x.reverse.dropWhile (· != slash) = [] := by
    apply (takeWhile_all _ _ _).2
    intro y hy
    have : y ∈ x := by simpa using hy
    have : y ≠ slash := fun hh => h (hh ▸ this)
    simpa using this
  simp [this]

theorem dirname_slash (a x : Str) (h : slash ∉ x) : pDirname (a ++ slash :: x) =
    if (a ++ [slash]).all (· == slash) then a ++ [slash] else rstripSlash (a ++ [slash]) := by
  unfold pDirname
  rw [List.reverse_append, List.reverse_cons, List.append_assoc, List.singleton_append]
  rw [(takeWhile_append_stop _ _ _ _ _ _).2]
  · simp
  · intro y hy
    have : y ∈ x := by simpa using hy
    have : y ≠ slash := fun hh => h (hh ▸ this)
    simpa using this
  · simp

theorem rstrip_of_last (a : Str) (c : Nat) (h : a.getLast? = some c) (hc : c ≠ slash) :
    rstripSlash (a ++ [slash]) = a := by
  unfold rstripSlash
  rw [List.reverse_append]
  simp
  have : a.reverse.head? = some c := by simpa using h
  cases hr : a.reverse with
  | nil => simp [hr] at this
  | cons d r =>
    simp [hr] at this
    subst this
    have hd : (d == slash) = false := by simpa using hc
    rw [List.dropWhile_cons, hd]
    simp
    rw [← List.reverse_reverse a, hr]; simp

theorem lead_cases (p : Str) : lead p = [] ∨ lead p = [slash] ∨ lead p = [slash, slash] := by
  unfold lead; split <;> simp

theorem splitTarget_eq (p : Str) : splitTarget p = groupTarget (lead p) (names p) := by
  have hN := names_isName p
  unfold splitTarget
  rw [normpath_eq]
  rcases List.eq_nil_or_concat (names p) with hn | ⟨xs, x, hn⟩
  · rw [hn]
    rcases lead_cases p with hl | hl | hl <;> rw [hl] <;> decide
  · rw [List.concat_eq_append] at hn
    rw [hn] at hN ⊢
    have hx : IsName x := hN x (by simp)
    have hxs : ∀ y ∈ xs, IsName y := fun y hy => hN y (by simp [hy])
    have hne : lead p ++ joinSlash (xs ++ [x]) ≠ [] := by
      have := joinSlash_ne_nil (xs ++ [x]) (by simp) (fun y hy => (hN y hy).1)
      simp [this]
    rw [if_neg hne]
    simp only [groupTarget, List.getLast?_append, List.getLast?_singleton, Option.some_or, List.dropLast_concat]
    by_cases hxe : xs = []
    · subst hxe
      simp only [List.nil_append, joinSlash, List.append_nil, true_and]
      rcases lead_cases p with hl | hl | hl <;> rw [hl]
      · simp [basename_free x hx.2.1, dirname_free x hx.2.1, hx.1]
      · have h1 : ([slash] : Str) ++ x = [] ++ slash :: x := rfl
        rw [h1, dirname_slash _ _ hx.2.1, basename_slash _ _ hx.2.1]
        simp [hx.1]
      · have h1 : ([slash, slash] : Str) ++ x = [slash] ++ slash :: x := rfl
        rw [h1, dirname_slash _ _ hx.2.1, basename_slash _ _ hx.2.1]
        simp [hx.1]
    · obtain ⟨c, hc, hcs⟩ := joinSlash_last xs hxe hxs
      have h1 : lead p ++ joinSlash (xs ++ [x]) = (lead p ++ joinSlash xs) ++ slash :: x := by
        rw [joinSlash_concat _ _ hxe]; simp
      have hlast : (lead p ++ joinSlash xs).getLast? = some c := by
        rw [List.getLast?_append, hc]; rfl
      have hnot : ((lead p ++ joinSlash xs) ++ [slash]).all (· == slash) = false := by
        rw [List.all_eq_false]
        refine ⟨c, ?_, by simpa using hcs⟩
        have := List.mem_of_getLast? hlast
        simp only [List.mem_append] at this ⊢
        exact Or.inl this
      have hne2 : lead p ++ joinSlash xs ≠ [] := by intro hh; rw [hh] at hlast; simp at hlast
      rw [h1, dirname_slash _ _ hx.2.1, basename_slash _ _ hx.2.1, hnot, rstrip_of_last _ _ hlast hcs]
      have hg : (lead p ++ joinSlash xs).length ≠ 0 := by simpa [List.length_eq_zero_iff] using hne2
      have hxl : x.length ≠ 0 := by simpa [List.length_eq_zero_iff] using hx.1
      simp [hxe, hx.1]
      intro hh
      have := joinSlash_ne_nil xs hxe (fun y hy => (hxs y hy).1)
      simp [this]


/-! ### Names of the resulting pair -/

theorem groupTarget_names (ld : Str) (ns : List Str) (hl : ld = [] ∨ ld = [slash] ∨ ld = [slash, slash])
    (h : ∀ x ∈ ns, IsName x) :
    hdf5Names (groupTarget ld ns).1 ++ hdf5Names (groupTarget ld ns).2 = ns := by
  rcases List.eq_nil_or_concat ns with hn | ⟨xs, x, hn⟩
  · subst hn
    rcases hl with rfl | rfl | rfl <;> decide
  · rw [List.concat_eq_append] at hn
    subst hn
    have hx : IsName x := h x (by simp)
    have hxs : ∀ y ∈ xs, IsName y := fun y hy => h y (by simp [hy])
    simp only [groupTarget, List.getLast?_append, List.getLast?_singleton, Option.some_or, List.dropLast_concat]
    rw [hdf5Names_name x hx]
    congr 1
    split
    · rename_i hh; rw [hh.1]; decide
    · have : ∃ n, ld = List.replicate n slash := by
        rcases hl with rfl | rfl | rfl
        · exact ⟨0, rfl⟩
        · exact ⟨1, rfl⟩
        · exact ⟨2, rfl⟩
      obtain ⟨n, rfl⟩ := this
      rw [hdf5Names_replicate, hdf5Names_join xs hxs]

theorem groupTarget_nonempty (ld : Str) (ns : List Str) (h : ∀ x ∈ ns, IsName x) :
    (groupTarget ld ns).1 ≠ [] ∧ (groupTarget ld ns).2 ≠ [] ∧ slash ∉ (groupTarget ld ns).2 := by
  rcases List.eq_nil_or_concat ns with hn | ⟨xs, x, hn⟩
  · subst hn
    simp only [groupTarget, List.getLast?_nil]
    refine ⟨?_, by simp, by decide⟩
    split
    · simp
    · assumption
  · rw [List.concat_eq_append] at hn
    subst hn
    have hx : IsName x := h x (by simp)
    have hxs : ∀ y ∈ xs, IsName y := fun y hy => h y (by simp [hy])
    simp only [groupTarget, List.getLast?_append, List.getLast?_singleton, Option.some_or, List.dropLast_concat]
    refine ⟨?_, hx.1, hx.2.1⟩
    split
    · simp
    · rename_i hh
      by_cases hxe : xs = []
      · have : ld ≠ [] := fun h => hh ⟨hxe, h⟩
        simp [this]
      · have := joinSlash_ne_nil xs hxe (fun y hy => (hxs y hy).1)
        simp [this]

/-! ### join -/

theorem hdf5Names_joinStep (path b : Str) (hb : isAbs b = false) :
    hdf5Names (joinStep path b) = hdf5Names path ++ hdf5Names b := by
  simp only [joinStep, hb]
  simp only [Bool.false_eq_true, if_false]
  split
  · rename_i h
    rcases h with rfl | h
    · rfl
    · obtain ⟨q, rfl⟩ : ∃ q, path = q ++ [slash] := by
        rw [List.getLast?_eq_some_iff] at h; exact h
      rw [List.append_assoc, List.singleton_append, hdf5Names_append, hdf5Names_append]
      simp [hdf5Names_nil]
  · rw [hdf5Names_append]

theorem isAbs_joinStep (path b : Str) (hp : isAbs path = false) (hb : isAbs b = false) :
    isAbs (joinStep path b) = false := by
  simp only [joinStep, hb]
  simp only [Bool.false_eq_true, if_false]
  cases path with
  | nil => simpa using hb
  | cons c r => simp [isAbs] at hp ⊢; split <;> simpa using hp

theorem isAbs_joinStep_abs (path b : Str) (hp : isAbs path = true) (hb : isAbs b = false) :
    isAbs (joinStep path b) = true := by
  simp only [joinStep, hb]
  simp only [Bool.false_eq_true, if_false]
  cases path with
  | nil => simp [isAbs] at hp
  | cons c r => simp [isAbs] at hp ⊢; split <;> simpa using hp

theorem foldl_joinStep (l : List Str) : ∀ a, isAbs a = false → (∀ b ∈ l, isAbs b = false) →
    isAbs (l.foldl joinStep a) = false ∧
    hdf5Names (l.foldl joinStep a) = hdf5Names a ++ l.flatMap hdf5Names := by
  induction l with
  | nil => intro a ha _; simp [ha]
  | cons b l ih =>
    intro a ha hl
    have hb := hl b (by simp)
    have := ih (joinStep a b) (isAbs_joinStep _ _ ha hb) (fun b hb => hl b (by simp [hb]))
    rw [hdf5Names_joinStep _ _ hb] at this
    simpa using this

theorem dotdot_plain (abs : Bool) (r : List Str) (h : ∀ x ∈ r, x ≠ [46, 46]) : ∀ done,
    dotdot abs done r = done ++ r := by
  induction r with
  | nil => intro done; simp [dotdot]
  | cons c r ih =>
    intro done
    have := h c (by simp)
    simp [dotdot, this, ih (fun x hx => h x (by simp [hx]))]

theorem lead_rel (p : Str) (h : isAbs p = false) : lead p = [] := by
  cases p with
  | nil => rfl
  | cons c r =>
    have : c ≠ 47 := by simpa [isAbs, slash] using h
    simp [lead, this]

theorem lead_abs (p : Str) (h : isAbs p = true) : lead p ≠ [] := by
  cases p with
  | nil => simp [isAbs] at h
  | cons c r =>
    have : c = 47 := by simpa [isAbs, slash] using h
    subst this
    unfold lead
    split <;> simp_all

/-! ### commonpath -/

theorem strLt_irrefl (a : Str) : strLt a a = false := by
  induction a with
  | nil => rfl
  | cons c r ih => simp [strLt, ih]

theorem strLt_asymm (a b : Str) (h : strLt a b = true) : strLt b a = false := by
  induction a generalizing b with
  | nil => cases b <;> simp_all [strLt]
  | cons c r ih =>
    cases b with
    | nil => simp [strLt] at h
    | cons d s =>
      simp [strLt] at h ⊢
      rcases h with h | ⟨rfl, h⟩
      · constructor
        · omega
        · intro hh; omega
      · simp [ih s h]

theorem strLt_total (a b : Str) (h1 : strLt a b = false) (h2 : strLt b a = false) : a = b := by
  induction a generalizing b with
  | nil => cases b <;> simp_all [strLt]
  | cons c r ih =>
    cases b with
    | nil => simp [strLt] at h2
    | cons d s =>
      simp [strLt] at h1 h2
      have hcd : c = d := by omega
      subst hcd
      rw [ih s (h1.2 rfl) (h2.2 rfl)]

theorem listLt_asymm (a b : List Str) (h : listLt a b = true) : listLt b a = false := by
  induction a generalizing b with
  | nil => cases b <;> simp_all [listLt]
  | cons c r ih =>
    cases b with
    | nil => simp [listLt] at h
    | cons d s =>
      simp [listLt] at h ⊢
      rcases h with h | ⟨rfl, h⟩
      · refine ⟨strLt_asymm _ _ h, ?_⟩
        rintro rfl; rw [strLt_irrefl] at h; cases h
      · simp [ih s h, strLt_irrefl]

theorem listLt_total (a b : List Str) (h1 : listLt a b = false) (h2 : listLt b a = false) : a = b := by
  induction a generalizing b with
  | nil => cases b <;> simp_all [listLt]
  | cons c r ih =>
    cases b with
    | nil => simp [listLt] at h2
    | cons d s =>
      simp [listLt] at h1 h2
      have hcd : c = d := strLt_total _ _ h1.1 h2.1
      subst hcd
      rw [ih s (h1.2 rfl) (h2.2 rfl)]

theorem commonPrefix_comm (a b : List Str) : commonPrefix a b = commonPrefix b a := by
  induction a generalizing b with
  | nil => cases b <;> rfl
  | cons c r ih =>
    cases b with
    | nil => rfl
    | cons d s =>
      simp only [commonPrefix]
      by_cases h : c = d
      · subst h; simp [ih s]
      · simp [h, Ne.symm h]

theorem commonPrefix_minmax (a b : List Str) :
    commonPrefix (if listLt b a then b else a) (if listLt a b then b else a) = commonPrefix a b := by
  cases h1 : listLt a b <;> cases h2 : listLt b a
  · have := listLt_total _ _ h1 h2; subst this; simp
  · simp; exact commonPrefix_comm _ _
  · simp
  · rw [listLt_asymm _ _ h1] at h2; cases h2

theorem commonPrefix_sub (a b : List Str) : ∀ x ∈ commonPrefix a b, x ∈ a := by
  induction a generalizing b with
  | nil => intro x hx; cases b <;> simp [commonPrefix] at hx
  | cons c r ih =>
    cases b with
    | nil => intro x hx; simp [commonPrefix] at hx
    | cons d s =>
      intro x hx
      simp only [commonPrefix] at hx
      split at hx
      · rcases List.mem_cons.mp hx with rfl | hx
        · simp
        · simp [ih s x hx]
      · simp at hx

theorem commonPrefix_nil_iff (a b : List Str) :
    commonPrefix a b ≠ [] ↔ ∃ c, a.head? = some c ∧ b.head? = some c := by
  cases a with
  | nil => cases b <;> simp [commonPrefix]
  | cons x r =>
    cases b with
    | nil => simp [commonPrefix]
    | cons y s =>
      simp only [commonPrefix]
      by_cases h : x = y
      · simp [h]
      · simp [h, Ne.symm h]

/-- `commonpath` of two absolute paths is the root unless both start with the same name. -/
theorem commonpath2_abs (p q : Str) (hp : isAbs p = true) (hq : isAbs q = true) :
    ∃ c, commonpath2 p q = .ok c ∧
      (c ≠ [slash] ↔ ∃ x, (hdf5Names p).head? = some x ∧ (hdf5Names q).head? = some x) := by
  refine ⟨_, by simp only [commonpath2, hp, hq]; simp; rfl, ?_⟩
  rw [commonPrefix_minmax]
  rw [show commonComps p = hdf5Names p from rfl, show commonComps q = hdf5Names q from rfl]
  rw [← commonPrefix_nil_iff]
  have : ∀ x ∈ commonPrefix (hdf5Names p) (hdf5Names q), x ≠ [] := fun x hx =>
    (hdf5Names_isName p x (commonPrefix_sub _ _ x hx)).1
  constructor
  · intro h hh; rw [hh] at h; exact h rfl
  · intro h hh
    have := joinSlash_ne_nil _ h this
    simp at hh
    exact this hh

/-- The guard rejects exactly the pairs whose first name is that of the references Group. -/
theorem guardRefs_iff (refs g t : Str) (hr : isAbs refs = true) (hts : slash ∉ t) :
    (guardRefs refs (g, t) = .error .valueError ∧
      ∃ x, (hdf5Names refs).head? = some x ∧ (hdf5Names g ++ hdf5Names t).head? = some x) ∨
    (guardRefs refs (g, t) = .ok () ∧
      ¬ ∃ x, (hdf5Names refs).head? = some x ∧ (hdf5Names g ++ hdf5Names t).head? = some x) := by
  have htabs : isAbs t = false := by
    cases t with
    | nil => rfl
    | cons c r =>
      have : c ≠ slash := by intro h; exact hts (by simp [h])
      simp [isAbs, this]
  have key : ∃ j, pJoin [(if isAbs g then [] else [slash]), g, t] = .ok j ∧ isAbs j = true ∧
      hdf5Names j = hdf5Names g ++ hdf5Names t := by
    refine ⟨_, rfl, ?_, ?_⟩
    · simp only [List.foldl_cons, List.foldl_nil]
      apply isAbs_joinStep_abs _ _ _ htabs
      cases hga : isAbs g
      · simp only [Bool.false_eq_true, if_false]
        exact isAbs_joinStep_abs _ _ rfl hga
      · simp [joinStep, hga]
    · simp only [List.foldl_cons, List.foldl_nil]
      rw [hdf5Names_joinStep _ _ htabs]
      congr 1
      cases hga : isAbs g
      · simp only [Bool.false_eq_true, if_false]
        rw [hdf5Names_joinStep _ _ hga]; rfl
      · simp [joinStep, hga]
  obtain ⟨j, hj, hja, hjn⟩ := key
  obtain ⟨c, hc, hiff⟩ := commonpath2_abs refs j hr hja
  rw [hjn] at hiff
  by_cases hcs : c = [slash]
  · right
    refine ⟨?_, ?_⟩
    · simp only [guardRefs, hj, bind, Except.bind, hc, hcs]; rfl
    · intro h; exact (hiff.mpr h) hcs
  · left
    refine ⟨?_, hiff.mp hcs⟩
    simp only [guardRefs, hj, bind, Except.bind, hc]; simp [hcs]


/-! ### Spelling variants -/

theorem takeWhile_append_ex (a r r' : Str) (h : ∃ c ∈ a, c ≠ slash) :
    (a ++ r).takeWhile (· == 47) = (a ++ r').takeWhile (· == 47) := by
  induction a with
  | nil => simp at h
  | cons c a ih =>
    by_cases hc : c = 47
    · subst hc
      obtain ⟨d, hd, hds⟩ := h
      rcases List.mem_cons.mp hd with rfl | hd
      · exact absurd rfl hds
      · simp [ih ⟨d, hd, hds⟩]
    · simp [hc]

theorem lead_append (a r r' : Str) (h : ∃ c ∈ a, c ≠ slash) : lead (a ++ r) = lead (a ++ r') := by
  unfold lead; rw [takeWhile_append_ex a r r' h]

theorem head_append (a r r' : Str) (h : a ≠ []) : (a ++ r).head? = (a ++ r').head? := by
  cases a with
  | nil => exact absurd rfl h
  | cons c a => rfl

theorem ex_ne_nil {a : Str} (h : ∃ c ∈ a, c ≠ slash) : a ≠ [] := by
  rintro rfl; simp at h

theorem dotdot_append (abs : Bool) (l r : List Str) : ∀ done,
    dotdot abs done (l ++ r) = dotdot abs (dotdot abs done l) r := by
  induction l with
  | nil => intro done; simp [dotdot]
  | cons c l ih =>
    intro done
    simp only [List.cons_append, dotdot]
    split
    · split
      · split
        · exact ih _
        · exact ih _
      · split
        · exact ih _
        · exact ih _
    · exact ih _

theorem dotdot_cancel (abs : Bool) (done r : List Str) (x : Str) (h : x ≠ [46, 46]) :
    dotdot abs done (x :: [46, 46] :: r) = dotdot abs done r := by
  simp [dotdot, h]

theorem splitTarget_congr (p q : Str) (h1 : lead p = lead q) (h2 : names p = names q) :
    splitTarget p = splitTarget q := by
  rw [splitTarget_eq, splitTarget_eq, h1, h2]

/-! ### Stability -/

/-- Already resolved: only leading `..`, none in an absolute path. -/
def Resolved (abs : Bool) (l : List Str) : Prop :=
  ∃ k m, l = List.replicate k [46, 46] ++ m ∧ [46, 46] ∉ m ∧ (abs = true → k = 0)

theorem resolved_dotdot (abs : Bool) (r : List Str) : ∀ done, Resolved abs done → Resolved abs (dotdot abs done r) := by
  induction r with
  | nil => intro done h; simpa [dotdot] using h
  | cons c r ih =>
    intro done h
    obtain ⟨k, m, rfl, hm, hk⟩ := h
    simp only [dotdot]
    split
    · rename_i hc
      subst hc
      rcases List.eq_nil_or_concat m with rfl | ⟨m', y, rfl⟩
      · cases k with
        | zero =>
          simp only [List.replicate_zero, List.nil_append, List.getLast?_nil]
          split
          · exact ih _ ⟨0, [], rfl, by simp, fun _ => rfl⟩
          · rename_i ha; exact ih _ ⟨1, [], rfl, by simp, fun h => absurd h ha⟩
        | succ k =>
          have : (List.replicate (k + 1) ([46, 46] : Str) ++ []).getLast? = some [46, 46] := by
            rw [List.append_nil, List.replicate_succ', List.getLast?_concat]
          rw [this]
          simp only [if_true]
          apply ih
          refine ⟨k + 2, [], ?_, by simp, fun h => absurd (hk h) (by simp)⟩
          rw [List.append_nil, List.append_nil, ← List.replicate_succ']
      · rw [List.concat_eq_append] at hm ⊢
        simp only [List.mem_append, List.mem_singleton, not_or] at hm
        rw [← List.append_assoc]
        simp only [List.getLast?_append, List.getLast?_singleton, Option.some_or, List.dropLast_concat]
        rw [if_neg (Ne.symm hm.2)]
        exact ih _ ⟨k, m', rfl, hm.1, hk⟩
    · rename_i hc
      apply ih
      exact ⟨k, m ++ [c], by simp, by simp [hm, Ne.symm hc], hk⟩

theorem dotdot_resolved (abs : Bool) (l : List Str) (h : Resolved abs l) : dotdot abs [] l = l := by
  obtain ⟨k, m, rfl, hm, hk⟩ := h
  rw [dotdot_append]
  have : ∀ k j, (abs = true → k = 0) →
      dotdot abs (List.replicate j [46, 46]) (List.replicate k [46, 46]) = List.replicate (j + k) [46, 46] := by
    intro k
    induction k with
    | zero => intro j _; simp [dotdot]
    | succ k ih =>
      intro j hk
      cases abs with
      | true => exact absurd (hk rfl) (by simp)
      | false =>
        have ih := ih (j + 1) (by simp)
        cases j with
        | zero =>
          simp only [List.replicate_succ, dotdot, List.replicate_zero, List.getLast?_nil, if_true]
          rw [show 0 + 1 + k = k + 1 by omega] at ih
          simpa [List.replicate_succ] using ih
        | succ j =>
          rw [List.replicate_succ (n := k), dotdot]
          have : (List.replicate (j + 1) ([46, 46] : Str)).getLast? = some [46, 46] := by
            rw [List.replicate_succ', List.getLast?_concat]
          simp only [this, if_true]
          rw [← List.replicate_succ', ih]
          congr 1; omega
  have h0 := this k 0 hk
  simp only [List.replicate_zero, Nat.zero_add] at h0
  rw [h0, dotdot_plain]
  intro x hx hxx
  exact hm (hxx ▸ hx)

theorem joinSlash_head (xs : List Str) (hne : xs ≠ []) (h : ∀ x ∈ xs, IsName x) :
    ∃ c r, joinSlash xs = c :: r ∧ c ≠ slash := by
  cases xs with
  | nil => exact absurd rfl hne
  | cons y ys =>
    have hy := h y (by simp)
    cases y with
    | nil => exact absurd rfl hy.1
    | cons c r =>
      have : c ≠ slash := by intro hc; exact hy.2.1 (by simp [hc])
      cases ys with
      | nil => exact ⟨c, r, rfl, this⟩
      | cons z zs => exact ⟨c, r ++ slash :: joinSlash (z :: zs), rfl, this⟩

theorem lead_join (ld : Str) (ns : List Str) (hl : ld = [] ∨ ld = [slash] ∨ ld = [slash, slash])
    (hne : ns ≠ []) (h : ∀ x ∈ ns, IsName x) : lead (ld ++ joinSlash ns) = ld := by
  obtain ⟨c, r, hj, hc⟩ := joinSlash_head ns hne h
  have hc' : c ≠ 47 := hc
  rw [hj]
  rcases hl with rfl | rfl | rfl <;> simp [lead, hc']

theorem names_join (ld : Str) (ns : List Str) (hl : ld = [] ∨ ld = [slash] ∨ ld = [slash, slash])
    (hne : ns ≠ []) (h : ∀ x ∈ ns, IsName x) (hr : Resolved (ld != []) ns) :
    names (ld ++ joinSlash ns) = ns := by
  obtain ⟨c, r, hj, hc⟩ := joinSlash_head ns hne h
  have hn : hdf5Names (ld ++ joinSlash ns) = ns := by
    have : ∃ n, ld = List.replicate n slash := by
      rcases hl with rfl | rfl | rfl
      · exact ⟨0, rfl⟩
      · exact ⟨1, rfl⟩
      · exact ⟨2, rfl⟩
    obtain ⟨n, rfl⟩ := this
    rw [hdf5Names_replicate, hdf5Names_join ns h]
  have hh : ((ld ++ joinSlash ns).head? == some 47) = (ld != []) := by
    have hc' : c ≠ 47 := hc
    rw [hj]
    rcases hl with rfl | rfl | rfl <;> simp [hc']
  rw [names, hn, hh, dotdot_resolved _ _ hr]

theorem names_resolved (p : Str) : Resolved (lead p != []) (names p) := by
  have : (lead p != []) = (p.head? == some 47) := by
    cases h : isAbs p with
    | true => have := lead_abs p h; simp only [isAbs] at h; rw [h]; simpa using this
    | false => have := lead_rel p h; simp only [isAbs] at h; rw [h]; simpa using this
  rw [this]
  exact resolved_dotdot _ _ _ ⟨0, [], rfl, by simp, fun _ => rfl⟩

end HS
