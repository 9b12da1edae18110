import Verif.Lemmas.PosixPath
/-
C05–C07: paths and the references Group guard.
-/
namespace HS
open Spec

theorem escapePath_isName (t e : Str) (h : escapePath t = .ok e) (ht : t ≠ []) :
    IsName e ∧ e ≠ [46, 46] := by
  obtain ⟨h1, h2, h3, h4⟩ := C02_escaped_cannot_navigate t e h
  have hne : e ≠ [] := fun he => ht (h4.mp he)
  refine ⟨⟨hne, h1, ?_⟩, ?_⟩
  · rintro rfl; exact h3 rfl
  · rintro rfl; exact h3 rfl

theorem processElem_eq (e : PathElem) (t es : Str) (h : partText e = some t) (he : escapePath t = .ok es) :
    processElem e = .ok es := by
  cases e with
  | str s => simp [partText] at h; subst h; exact he
  | bytes b =>
    simp only [partText] at h
    simp only [processElem]
    cases hd : utf8Dec b with
    | error x => simp [hd, Except.toOption] at h
    | ok s => simp [hd, Except.toOption] at h; subst h; exact he
  | pure p => simp [partText] at h; subst h; exact he
  | other => simp [partText] at h

theorem mapM_processElem (l : List PathElem) (ts es : List Str) (h : l.map partText = ts.map some)
    (he : ts.map escapePath = es.map Except.ok) : l.mapM processElem = .ok es := by
  induction l generalizing ts es with
  | nil => cases ts <;> simp_all; rfl
  | cons a l ih =>
    cases ts with
    | nil => simp at h
    | cons t ts =>
      cases es with
      | nil => simp at he
      | cons e es =>
        simp at h he
        rw [List.mapM_cons, processElem_eq a t e h.1 he.1, ih ts es h.2 he.2]; rfl

/-- C05. A separated path addresses the object reached by following exactly its (escaped, non-empty) parts:
the result is the `/`-joined leading parts and the last part, `/` and `.` if all parts are empty. -/
theorem C05_separated_path (l : List PathElem) (ts es : List Str) (hne : l ≠ [])
    (ht : l.map partText = ts.map some) (he : ts.map escapePath = es.map Except.ok) :
    processPath (.seq l) = .ok (groupTarget [] (es.filter (· ≠ []))) := by
  have hm := mapM_processElem l ts es ht he
  have hmem : ∀ e ∈ es, ∃ t ∈ ts, escapePath t = .ok e := by
    intro e hh
    have : (Except.ok e : Res Str) ∈ ts.map escapePath := by rw [he]; exact List.mem_map_of_mem hh
    obtain ⟨t, h1, h2⟩ := List.mem_map.mp this
    exact ⟨t, h1, h2⟩
  have hrel : ∀ e ∈ es, isAbs e = false := by
    intro e hh
    obtain ⟨t, _, h2⟩ := hmem e hh
    have := (C02_escaped_cannot_navigate t e h2).1
    cases e with
    | nil => rfl
    | cons c r =>
      have : c ≠ slash := by intro hc; exact this (by simp [hc])
      simp [isAbs, this]
  have hnm : ∀ e ∈ es, hdf5Names e = if e = [] then [] else [e] := by
    intro e hh
    obtain ⟨t, _, h2⟩ := hmem e hh
    by_cases hee : e = []
    · subst hee; rfl
    · rw [if_neg hee]
      apply hdf5Names_name
      apply (escapePath_isName t e h2 _).1
      rintro rfl
      exact hee ((C02_escaped_cannot_navigate _ _ h2).2.2.2.mpr rfl)
  cases es with
  | nil =>
    cases ts with
    | nil => cases l <;> simp_all
    | cons t ts => simp at he
  | cons e es =>
    have hj := foldl_joinStep es e (hrel e (by simp)) (fun b hb => hrel b (by simp [hb]))
    have hp : processPath (.seq l) = .ok (splitTarget (es.foldl joinStep e)) := by
      simp only [processPath, pathText, hm, bind, Except.bind, pJoin]
    rw [hp, splitTarget_eq, lead_rel _ hj.1]
    congr 2
    rw [names, hj.2]
    have hf : hdf5Names e ++ es.flatMap hdf5Names = (e :: es).filter (· ≠ []) := by
      rw [← List.flatMap_cons]
      generalize e :: es = l' at hnm
      clear hj hp hm he ht hrel hmem
      induction l' with
      | nil => rfl
      | cons a l' ih =>
        rw [List.flatMap_cons, hnm a (by simp), ih (fun e he => hnm e (by simp [he]))]
        by_cases ha : a = [] <;> simp [ha]
    rw [hf, dotdot_plain]
    · simp
    · intro x hx
      obtain ⟨t, _, h2⟩ := hmem x (List.mem_filter.mp hx).1
      intro hxx; subst hxx
      exact (C02_escaped_cannot_navigate _ _ h2).2.2.1 rfl

-- Parts `..`, `a/b` and a bytes part stay what they are.
example : processPath (.seq [.str p!"..", .bytes p!"a/b", .str p!"c"]) =
    .ok (p!"\\x2e\\x2e/a\\x2fb", p!"c") := by decide

/-- C05, non-empty parts: target and group spelled out. -/
theorem C05_separated_nonempty (l : List PathElem) (ts es : List Str) (t e : Str)
    (ht : l.map partText = (ts ++ [t]).map some) (hne : ∀ x ∈ ts ++ [t], x ≠ [])
    (he : (ts ++ [t]).map escapePath = (es ++ [e]).map Except.ok) :
    processPath (.seq l) = .ok (if es = [] then p!"/" else joinSlash es, e) := by
  have hl : l ≠ [] := by rintro rfl; simp at ht
  rw [C05_separated_path l _ _ hl ht he]
  have : (es ++ [e]).filter (· ≠ []) = es ++ [e] := by
    rw [List.filter_eq_self]
    intro x hx
    have : (Except.ok x : Res Str) ∈ (ts ++ [t]).map escapePath := by rw [he]; exact List.mem_map_of_mem hx
    obtain ⟨t', h1, h2⟩ := List.mem_map.mp this
    have := (escapePath_isName t' x h2 (hne t' h1)).1.1
    simpa using this
  rw [this]
  simp only [groupTarget, List.getLast?_append, List.getLast?_singleton, Option.some_or, List.dropLast_concat]
  by_cases hh : es = [] <;> simp [hh]

example : processPath (.seq [.str p!"a", .str p!"b"]) = .ok (p!"a", p!"b") ∧
    ([p!"a", p!"b"]).map escapePath = [p!"a", p!"b"].map Except.ok := by decide

theorem exists_escapes (ts : List Str) : ∃ es : List Str, ts.map escapePath = es.map Except.ok := by
  induction ts with
  | nil => exact ⟨[], rfl⟩
  | cons t ts ih =>
    obtain ⟨es, h⟩ := ih
    obtain ⟨e, h1, _⟩ := C01_unescape_escape t
    exact ⟨e :: es, by simp [h, h1]⟩

/-- C05, injectivity: two sequences of non-empty str parts with the same group and target are equal. -/
theorem C05_separated_injective (ts ts' : List Str) (h1 : ts ≠ []) (h1' : ts' ≠ [])
    (h2 : ∀ t ∈ ts, t ≠ []) (h2' : ∀ t ∈ ts', t ≠ [])
    (h : processPath (.seq (ts.map .str)) = processPath (.seq (ts'.map .str))) : ts = ts' := by
  have main : ∀ ts : List Str, ts ≠ [] → (∀ t ∈ ts, t ≠ []) → ∃ es g t,
      ts.map escapePath = es.map Except.ok ∧ processPath (.seq (ts.map .str)) = .ok (g, t) ∧
      hdf5Names g ++ hdf5Names t = es := by
    intro ts hne hnn
    obtain ⟨es, he⟩ := exists_escapes ts
    have hp := C05_separated_path (ts.map .str) ts es (by simpa using hne) (by simp [partText, Function.comp_def]) he
    have hnames : ∀ x ∈ es, IsName x := by
      intro x hx
      have : (Except.ok x : Res Str) ∈ ts.map escapePath := by rw [he]; exact List.mem_map_of_mem hx
      obtain ⟨t', g1, g2⟩ := List.mem_map.mp this
      exact (escapePath_isName t' x g2 (hnn t' g1)).1
    have hf : es.filter (· ≠ []) = es := by
      rw [List.filter_eq_self]; intro x hx; simpa using (hnames x hx).1
    rw [hf] at hp
    exact ⟨es, _, _, he, hp, groupTarget_names [] es (Or.inl rfl) hnames⟩
  obtain ⟨es, g, t, a1, a2, a3⟩ := main ts h1 h2
  obtain ⟨es', g', t', b1, b2, b3⟩ := main ts' h1' h2'
  rw [a2, b2] at h
  injection h with h
  injection h with hg ht
  subst hg ht
  rw [a3] at b3
  subst b3
  rw [← b1] at a1
  clear a2 b2 a3 b1 h1 h1' h2 h2' main
  induction ts generalizing ts' with
  | nil => cases ts' <;> simp_all
  | cons t ts ih =>
    cases ts' with
    | nil => simp at a1
    | cons t' ts' =>
      simp at a1
      rw [C03_escape_injective _ _ a1.1, ih ts' a1.2]

/-- C05, errors: an empty sequence or a part of another type is a `TypeError`. -/
theorem C05_bad_parts (l : List PathElem) :
    processPath (.seq []) = .error .typeError ∧
    (∀ b, processPath (.seq (.other :: l)) = .error .typeError ∧ processPath .other = .error .typeError ∧
      (utf8Dec b = .error .unicodeError → processPath (.bytes b) = .error .unicodeError)) := by
  refine ⟨rfl, fun b => ⟨rfl, rfl, ?_⟩⟩
  intro h; simp [processPath, pathText, h, bind, Except.bind]

/-- C06. What a str path means: its names after lexical resolution, split into the last one and the group
of the others. -/
theorem C06_process_path_str (p : Str) :
    processPath (.str p) = .ok (groupTarget (lead p) (names p)) := by
  simp only [processPath, pathText, bind, Except.bind, splitTarget_eq]

example : processPath (.str p!"/a//./b/../c/") = .ok (p!"/a", p!"c") := by decide

/-- C06. Group and target are non-empty, the target is a single name, and HDF5 following group then target reaches
exactly the object the path denotes. -/
theorem C06_denotes (p g t : Str) (h : processPath (.str p) = .ok (g, t)) :
    g ≠ [] ∧ t ≠ [] ∧ 47 ∉ t ∧ hdf5Names g ++ hdf5Names t = names p := by
  rw [C06_process_path_str] at h
  injection h with h
  have h1 : (groupTarget (lead p) (names p)).1 = g := by rw [h]
  have h2 : (groupTarget (lead p) (names p)).2 = t := by rw [h]
  subst h1 h2
  obtain ⟨a, b, c⟩ := groupTarget_nonempty (lead p) (names p) (names_isName p)
  exact ⟨a, b, c, groupTarget_names _ _ (lead_cases p) (names_isName p)⟩

/-- C06. Spelling variants: a doubled slash, a `.` part, a trailing slash, and `x/..` for a proper name `x` make no
difference (after a part `a` that is not only slashes; `//a` keeps its two slashes as POSIX wants). -/
theorem C06_spelling_variants (a b x : Str) (ha : ∃ c ∈ a, c ≠ 47)
    (hx : x ≠ [] ∧ x ≠ p!"." ∧ x ≠ p!".." ∧ 47 ∉ x) :
    processPath (.str (a ++ p!"//" ++ b)) = processPath (.str (a ++ p!"/" ++ b)) ∧
    processPath (.str (a ++ p!"/./" ++ b)) = processPath (.str (a ++ p!"/" ++ b)) ∧
    processPath (.str (a ++ p!"/")) = processPath (.str a) ∧
    processPath (.str (a ++ p!"/" ++ x ++ p!"/../" ++ b)) = processPath (.str (a ++ p!"/" ++ b)) := by
  have hne := ex_ne_nil ha
  have key : ∀ r r', hdf5Names (a ++ r) = hdf5Names (a ++ r') → splitTarget (a ++ r) = splitTarget (a ++ r') := by
    intro r r' h
    apply splitTarget_congr _ _ (lead_append a r r' ha)
    rw [names, names, h, head_append a r r' hne]
  simp only [processPath, pathText, bind, Except.bind, List.append_assoc]
  refine ⟨?_, ?_, ?_, ?_⟩
  · rw [key]
    show hdf5Names (a ++ slash :: (slash :: b)) = hdf5Names (a ++ slash :: b)
    rw [hdf5Names_append, hdf5Names_append, hdf5Names_cons_slash]
  · rw [key]
    show hdf5Names (a ++ slash :: (p!"." ++ slash :: b)) = hdf5Names (a ++ slash :: b)
    rw [hdf5Names_append, hdf5Names_append, hdf5Names_append]; rfl
  · have := key p!"/" []
    rw [List.append_nil] at this
    rw [this]
    show hdf5Names (a ++ slash :: []) = hdf5Names a
    rw [hdf5Names_append, hdf5Names_nil, List.append_nil]
  · have hxn : IsName x := ⟨hx.1, hx.2.2.2, hx.2.1⟩
    have e1 : a ++ (p!"/" ++ (x ++ (p!"/../" ++ b))) = a ++ slash :: (x ++ slash :: (p!".." ++ slash :: b)) := by
      simp
    rw [show splitTarget (a ++ (p!"/" ++ (x ++ (p!"/../" ++ b)))) = splitTarget (a ++ (p!"/" ++ b)) from ?_]
    apply splitTarget_congr _ _ (lead_append a _ _ ha)
    rw [names, names, head_append a _ (p!"/" ++ b) hne, e1]
    show dotdot _ [] (hdf5Names (a ++ slash :: (x ++ slash :: (p!".." ++ slash :: b)))) =
      dotdot _ [] (hdf5Names (a ++ slash :: b))
    rw [hdf5Names_append, hdf5Names_append, hdf5Names_append, hdf5Names_append, hdf5Names_name x hxn]
    rw [show hdf5Names p!".." = [p!".."] from rfl]
    rw [dotdot_append, dotdot_append _ (hdf5Names a) (hdf5Names b)]
    exact dotdot_cancel _ _ _ _ hx.2.2.1

example : (∃ c ∈ p!"/a", c ≠ 47) ∧ (p!"x" ≠ [] ∧ p!"x" ≠ p!"." ∧ p!"x" ≠ p!".." ∧ 47 ∉ p!"x") := by decide

/-- C06 (partial). Processing the joined result again gives the same result, except for a relative path that
resolves to just `..` (`C06_counterexample`). -/
theorem C06_stable_partial (p g t : Str) (h : processPath (.str p) = .ok (g, t))
    (hex : ¬ (names p = [p!".."] ∧ lead p = [])) :
    ∃ j, pJoin [g, t] = .ok j ∧ processPath (.str j) = .ok (g, t) := by
  refine ⟨joinStep g t, rfl, ?_⟩
  rw [← h]
  simp only [processPath, pathText, bind, Except.bind]
  congr 1
  rw [C06_process_path_str] at h
  injection h with h
  rw [splitTarget_eq p, h]
  have hN := names_isName p
  have hl := lead_cases p
  have hR := names_resolved p
  have h1 : (groupTarget (lead p) (names p)).1 = g := by rw [h]
  have h2 : (groupTarget (lead p) (names p)).2 = t := by rw [h]
  rw [← h]
  subst h1 h2
  clear h
  rcases List.eq_nil_or_concat (names p) with hn | ⟨xs, x, hn⟩
  · rw [hn]
    rcases hl with hl | hl | hl <;> rw [hl] <;> decide
  · rw [List.concat_eq_append] at hn
    have hx : IsName x := hN x (by simp [hn])
    have hxs : ∀ y ∈ xs, IsName y := fun y hy => hN y (by simp [hn, hy])
    have hxr : isAbs x = false := by
      cases hxx : x with
      | nil => rfl
      | cons c r =>
        have : c ≠ slash := by intro hc; exact hx.2.1 (by simp [hxx, hc])
        simp [isAbs, this]
    have hg : ∀ ld, (groupTarget ld (xs ++ [x])).1 = (if xs = [] ∧ ld = [] then [47] else ld ++ joinSlash xs) := by
      intro ld
      simp only [groupTarget, List.getLast?_append, List.getLast?_singleton, Option.some_or, List.dropLast_concat]
    have ht : ∀ ld, (groupTarget ld (xs ++ [x])).2 = x := by
      intro ld
      simp only [groupTarget, List.getLast?_append, List.getLast?_singleton, Option.some_or]
    rw [hn, hg, ht]
    by_cases hxe : xs = [] ∧ lead p = []
    · obtain ⟨rfl, hle⟩ := hxe
      rw [hle]
      simp only [and_self, if_true, List.nil_append]
      have hj : joinStep [47] x = [slash] ++ joinSlash [x] := by simp [joinStep, hxr, joinSlash, slash]
      rw [hj, splitTarget_eq, lead_join _ _ (by simp) (by simp) (by simpa using hx)]
      have hnd : x ≠ [46, 46] := by
        rintro rfl
        exact hex ⟨by simpa using hn, hle⟩
      rw [names_join [slash] [x] (by simp) (by simp) (by simpa using hx) ⟨0, [x], rfl, by simpa using Ne.symm hnd, fun _ => rfl⟩]
      simp [groupTarget, joinSlash]
    · rw [if_neg hxe]
      have hj : joinStep (lead p ++ joinSlash xs) x = lead p ++ joinSlash (xs ++ [x]) := by
        by_cases hxs0 : xs = []
        · subst hxs0
          have hle : lead p ≠ [] := fun hh => hxe ⟨rfl, hh⟩
          rcases hl with hl | hl | hl
          · exact absurd hl hle
          · rw [hl]; simp [joinStep, hxr, joinSlash]
          · rw [hl]; simp [joinStep, hxr, joinSlash]
        · obtain ⟨c, hc, hcs⟩ := joinSlash_last xs hxs0 hxs
          have hlast : (lead p ++ joinSlash xs).getLast? = some c := by
            rw [List.getLast?_append, hc]; rfl
          have hne : lead p ++ joinSlash xs ≠ [] := by intro hh; rw [hh] at hlast; simp at hlast
          simp only [joinStep, hxr, hlast]
          rw [if_neg (by simp), if_neg (by simp [hne, hcs]), joinSlash_concat _ _ hxs0]
          simp
      have hN' : ∀ y ∈ xs ++ [x], IsName y := by rw [← hn]; exact hN
      rw [hj, splitTarget_eq, lead_join _ _ hl (by simp) hN', names_join _ _ hl (by simp) hN' (by rw [← hn]; exact hR)]

example : ¬ (names p!"a/../../b" = [p!".."] ∧ lead p!"a/../../b" = []) := by decide

/-- The path `..` is not stable: it becomes the object named `..` in the root Group, but `/..` is the root Group. -/
theorem C06_counterexample :
    processPath (.str p!"..") = .ok (p!"/", p!"..") ∧ processPath (.str p!"/..") = .ok (p!"/", p!".") := by decide

theorem processPath_pair (p : PathArg) (g t : Str) (h : processPath p = .ok (g, t)) :
    ∃ q, (g, t) = splitTarget q := by
  simp only [processPath, bind, Except.bind] at h
  split at h
  · cases h
  · injection h with h; exact ⟨_, h.symm⟩

theorem checkPath_iff (refs : Str) (hr : refs.head? = some 47) (p : PathArg) (g t : Str)
    (hp : processPath p = .ok (g, t)) :
    (checkPath refs p = .error .valueError ∧
      ∃ x, (hdf5Names refs).head? = some x ∧ (hdf5Names g ++ hdf5Names t).head? = some x) ∨
    (checkPath refs p = .ok (g, t) ∧
      ¬ ∃ x, (hdf5Names refs).head? = some x ∧ (hdf5Names g ++ hdf5Names t).head? = some x) := by
  obtain ⟨q, hq⟩ := processPath_pair p g t hp
  rw [splitTarget_eq] at hq
  have hts : slash ∉ t := by
    have := (groupTarget_nonempty (lead q) (names q) (names_isName q)).2.2
    rw [← hq] at this; exact this
  have hra : isAbs refs = true := by simp [isAbs, hr]
  rcases guardRefs_iff refs g t hra hts with ⟨h1, h2⟩ | ⟨h1, h2⟩
  · left; exact ⟨by simp [checkPath, hp, bind, Except.bind, h1], h2⟩
  · right; exact ⟨by simp [checkPath, hp, bind, Except.bind, h1], h2⟩

/-- C07, safety direction at full strength: whatever form the path argument has (str, bytes, PurePath, separated), if the
object it addresses is the references Group or lies below it, `ValueError` is raised. -/
theorem C07_inside_rejected (refs : Str) (hr : refs.head? = some 47) (hroot : hdf5Names refs ≠ [])
    (p : PathArg) (g t : Str) (hp : processPath p = .ok (g, t))
    (hin : hdf5Names refs <+: hdf5Names g ++ hdf5Names t) : checkPath refs p = .error .valueError := by
  rcases checkPath_iff refs hr p g t hp with ⟨h, _⟩ | ⟨_, h⟩
  · exact h
  · exfalso
    apply h
    obtain ⟨r, hr⟩ := hin
    cases hn : hdf5Names refs with
    | nil => exact absurd hn hroot
    | cons x xs => exact ⟨x, rfl, by rw [← hr, hn]; rfl⟩

example : checkPath p!"/#refs#" (.str p!"//a/..//./#refs#/b/") = .error .valueError := by decide

/-- C07 for str paths: in terms of the names the path denotes. -/
theorem C07_inside_rejected_str (refs p : Str) (hr : refs.head? = some 47) (hroot : hdf5Names refs ≠ [])
    (hin : hdf5Names refs <+: names p) : checkPath refs (.str p) = .error .valueError := by
  have hp := C06_process_path_str p
  have hd := C06_denotes p _ _ hp
  exact C07_inside_rejected refs hr hroot _ _ _ hp (by rw [hd.2.2.2]; exact hin)

/-- C07 (partial), exactness: for a references Group directly below the root (such as the default `/#refs#`) a path is
rejected only if it is inside.  Missing: nested reference Groups, where siblings are rejected too
(`C07_counterexample`, finding F9). -/
theorem C07_exact_partial (refs : Str) (hr : refs.head? = some 47) (r : Str) (h1 : hdf5Names refs = [r])
    (p : PathArg) (g t : Str) (hp : processPath p = .ok (g, t)) :
    (checkPath refs p = .error .valueError ∧ [r] <+: hdf5Names g ++ hdf5Names t) ∨
    (checkPath refs p = .ok (g, t) ∧ ¬ [r] <+: hdf5Names g ++ hdf5Names t) := by
  rcases checkPath_iff refs hr p g t hp with ⟨h, x, h2, h3⟩ | ⟨h, h2⟩
  · left
    refine ⟨h, ?_⟩
    rw [h1] at h2
    simp only [List.head?_cons, Option.some.injEq] at h2
    subst h2
    obtain ⟨ys, hy⟩ := List.head?_eq_some_iff.mp h3
    exact ⟨ys, by rw [hy]; rfl⟩
  · right
    refine ⟨h, ?_⟩
    rintro ⟨ys, hy⟩
    exact h2 ⟨r, by rw [h1]; rfl, by rw [← hy]; rfl⟩

example : hdf5Names p!"/#refs#" = [p!"#refs#"] ∧
    checkPath p!"/#refs#" (.str p!"/#refs#x") = .ok (p!"/", p!"#refs#x") := by decide

/-- F9: with the references Group at `/a/refs`, the unrelated path `/a/b` is rejected. -/
theorem C07_counterexample :
    checkPath p!"/a/refs" (.str p!"/a/b") = .error .valueError ∧
    ¬ (hdf5Names p!"/a/refs" <+: names p!"/a/b") := by
  refine ⟨by decide, ?_⟩
  decide

end HS
