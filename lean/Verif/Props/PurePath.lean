import Verif.Model.PurePath
import Verif.Props.Path
import Verif.Model.File
import Verif.Spec.File
import Verif.Lemmas.Unicode
/-
Paths given as bytes or as `pathlib` objects.
-/
namespace HS
open Spec

/-- Joining names. -/
theorem join_names (l : List Str) : ∀ a : Str, a ≠ [] → a.getLast? ≠ some slash → (∀ b ∈ l, IsName b) → l.foldl joinStep a = a ++ l.flatMap fun b => slash :: b := by
  induction l with
  | nil => intro a _ _ _; simp
  | cons b l ih =>
    intro a h1 h2 h3
    have hb := h3 b (by simp)
    have hrel : isAbs b = false := by
      cases b with
      | nil => rfl
      | cons c r =>
        have : c ≠ slash := fun e => hb.2.1 (by simp [e])
        simp [isAbs, this]
    have hstep : joinStep a b = a ++ slash :: b := by
      unfold joinStep
      rw [hrel, if_neg (by simp), if_neg (by intro h; rcases h with h | h; exact h1 h; exact h2 h)]
    rw [List.foldl_cons, hstep, ih _ (by simp) ?_ (fun b hb => h3 b (by simp [hb]))]
    · simp
    · intro h
      rw [List.getLast?_append] at h
      obtain ⟨c, r, rfl⟩ : ∃ c r, b = c :: r := by
        cases b with
        | nil => exact absurd rfl hb.1
        | cons c r => exact ⟨c, r, rfl⟩
      have hl : (slash :: c :: r).getLast? = (c :: r).getLast? := by simp [List.getLast?_cons_cons]
      rw [hl] at h
      cases hg : (c :: r).getLast? with
      | none => simp at hg
      | some d =>
        rw [hg] at h
        have hd : d = slash := by simpa using h
        exact hb.2.1 (hd ▸ List.mem_of_getLast? hg)

theorem joinSlash_flat (l : List Str) : ∀ x, joinSlash (x :: l) = x ++ l.flatMap fun b => slash :: b := by
  induction l with
  | nil => intro x; simp [joinSlash]
  | cons b l ih => intro x; rw [joinSlash, ih]; simp; simp

theorem isName_last {x : Str} (h : IsName x) : x.getLast? ≠ some slash := fun e => h.2.1 (List.mem_of_getLast? e)

/-- Joining names only. -/
theorem pJoin_names {l : List Str} (hne : l ≠ []) (h : ∀ b ∈ l, IsName b) : pJoin l = .ok (joinSlash l) := by
  cases l with
  | nil => exact absurd rfl hne
  | cons x l =>
    have hx := h x (by simp)
    rw [pJoin, join_names l x hx.1 (isName_last hx) (fun b hb => h b (by simp [hb])), joinSlash_flat]

/-- Joining the root and names. -/
theorem pJoin_root {l : List Str} (h : ∀ b ∈ l, IsName b) : pJoin ([slash] :: l) = .ok (slash :: joinSlash l) := by
  cases l with
  | nil => rfl
  | cons x l =>
    have hx := h x (by simp)
    have hstep : joinStep [slash] x = slash :: x := by
      unfold joinStep
      have hrel : isAbs x = false := by
        cases x with
        | nil => rfl
        | cons c r =>
          have : c ≠ slash := fun e => hx.2.1 (by simp [e])
          simp [isAbs, this]
      rw [hrel, if_neg (by simp), if_pos (by right; rfl)]
      rfl
    rw [pJoin, List.foldl_cons, hstep, join_names l _ (by simp) ?_ (fun b hb => h b (by simp [hb])), joinSlash_flat]
    · simp
    · obtain ⟨c, r, rfl⟩ : ∃ c r, x = c :: r := by
        cases x with
        | nil => exact absurd rfl hx.1
        | cons c r => exact ⟨c, r, rfl⟩
      rw [List.getLast?_cons_cons]
      exact isName_last hx

theorem head_join {l : List Str} (h : ∀ b ∈ l, IsName b) : (joinSlash l).head? ≠ some 47 := by
  cases l with
  | nil => simp [joinSlash]
  | cons x l =>
    obtain ⟨c, r, h1, h2⟩ := joinSlash_head (x :: l) (by simp) h
    rw [h1]
    intro e
    exact h2 (Option.some.inj e)

/-- A relative path of names. -/
theorem split_names {ns : List Str} (h : ∀ b ∈ ns, IsName b) (hne : ns ≠ []) : splitTarget (joinSlash ns) = groupTarget [] (dotdot false [] ns) := by
  have h1 := lead_join [] ns (.inl rfl) hne h
  rw [List.nil_append] at h1
  rw [splitTarget_eq, h1, names, hdf5Names_join ns h]
  have := head_join h
  have : ((joinSlash ns).head? == some 47) = false := by
    rw [beq_eq_false_iff_ne]; exact this
  rw [this]

theorem comps_isName (s : Str) : ∀ b ∈ commonComps s, IsName b := fun b hb => hdf5Names_isName s b hb

theorem head_lead (s : Str) : (s.head? == some 47) = (lead s != []) := by
  rw [← initialSlashes_lead, ← initialSlashes_pos]
  cases initialSlashes s with
  | zero => rfl
  | succ n => simp

/-- C67. A path given as bytes is that given by the text they are the UTF-8 of. -/
theorem C67_bytes (s : Str) (b : Bytes) (h : utf8Enc s = .ok b) : processPath (.bytes b) = processPath (.str s) := by
  simp only [processPath, pathText, utf8Dec_enc s b h]

/-- C67. A `PurePosixPath` is taken for the path it is made from, in any spelling, unless that is the current directory or begins with exactly two slashes. -/
theorem C67_posix_partial (s : Str) (h1 : lead s ≠ p!"//") (h2 : lead s = [] → hdf5Names s ≠ []) : processPath (.pure (purePosix s)) = processPath (.str s) := by
  rw [C06_process_path_str]
  have hr : List.replicate (initialSlashes s) slash = lead s := initialSlashes_lead s
  have hn := comps_isName s
  rcases lead_cases s with hl | hl | hl
  · have hne : commonComps s ≠ [] := h2 hl
    have e : pathText (.pure (purePosix s)) = .ok (joinSlash (commonComps s)) := by
      simp only [pathText, purePosix, hr, hl]
      exact pJoin_names hne hn
    simp only [processPath, e, bind, Except.bind]
    rw [split_names hn hne, hl, names, head_lead, hl]
    rfl
  · have e : pathText (.pure (purePosix s)) = .ok (slash :: joinSlash (commonComps s)) := by
      simp only [pathText, purePosix, hr, hl]
      exact pJoin_root hn
    simp only [processPath, e, bind, Except.bind]
    rw [splitTarget_eq]
    have hlead : lead (slash :: joinSlash (commonComps s)) = [slash] := by
      by_cases hne : commonComps s = []
      · rw [hne]; rfl
      · exact lead_join [slash] _ (.inr (.inl rfl)) hne hn
    have hnames : names (slash :: joinSlash (commonComps s)) = names s := by
      rw [names, names, head_lead, head_lead, hlead, hl, hdf5Names_cons_slash, hdf5Names_join _ hn]
      rfl
    rw [hlead, hnames, hl]
  · exact absurd hl h1

example : processPath (.pure (purePosix p!"/a/./b//c")) = .ok (p!"/a/b", p!"c") ∧ processPath (.pure (purePosix p!"a/../b")) = .ok (p!"/", p!"b") ∧
    processPath (.pure (purePosix p!"///")) = .ok (p!"/", p!".") ∧ lead p!"/a/./b//c" ≠ p!"//" ∧ lead p!"a/../b" = [] ∧ hdf5Names p!"a/../b" ≠ [] := by decide

/-- C67. If it begins with exactly two slashes, and there are names after them and no `..`, it addresses the same object. -/
theorem C67_two_slashes (s : Str) (h1 : lead s = p!"//") (h2 : hdf5Names s ≠ []) (h3 : p!".." ∉ hdf5Names s) :
    Addr (.pure (purePosix s)) (names s) ∧ Addr (.str s) (names s) := by
  have hr : List.replicate (initialSlashes s) slash = lead s := initialSlashes_lead s
  have hn := comps_isName s
  have hd : ∀ b, dotdot b [] (hdf5Names s) = hdf5Names s := by
    intro b
    have := dotdot_plain b (hdf5Names s) (by intro x hx e; exact h3 (e ▸ hx)) []
    simpa using this
  have e : pathText (.pure (purePosix s)) = .ok (joinSlash (commonComps s)) := by
    simp only [pathText, purePosix, hr, h1]
    exact pJoin_names h2 hn
  have hnm : names s = hdf5Names s := by rw [names, hd]
  constructor
  · refine ⟨(groupTarget [] (hdf5Names s)).1, (groupTarget [] (hdf5Names s)).2, ?_, ?_⟩
    · simp only [processPath, e, bind, Except.bind]
      rw [split_names hn h2]
      show Except.ok (groupTarget [] (dotdot false [] (hdf5Names s))) = _
      rw [hd]
    · rw [hnm]
      exact (groupTarget_names [] _ (.inl rfl) (fun x hx => hdf5Names_isName s x hx)).symm
  · refine ⟨_, _, C06_process_path_str s, ?_⟩
    exact (groupTarget_names _ _ (lead_cases s) (names_isName s)).symm

example : lead p!"//a/b" = p!"//" ∧ hdf5Names p!"//a/b" = [p!"a", p!"b"] ∧ processPath (.pure (purePosix p!"//a/b")) = .ok (p!"a", p!"b") := by decide

/-- C67. A `PureWindowsPath` with a root, or without a drive, addresses what its names address; the drive does not matter. -/
theorem C67_windows (drive : Str) (rooted : Bool) (ns : List Str) (h1 : rooted = true ∨ drive = []) (h2 : ns ≠ []) (h3 : ∀ n ∈ ns, n ≠ [] ∧ 47 ∉ n ∧ n ≠ p!".") :
    processPath (.pure (pureWindows drive rooted ns)) = .ok (groupTarget [] (dotdot false [] ns)) := by
  have hn : ∀ b ∈ ns, IsName b := h3
  have e : pathText (.pure (pureWindows drive rooted ns)) = .ok (joinSlash ns) := by
    cases rooted with
    | true =>
      have : ¬ (drive ++ [92] = ([] : Str)) := by simp
      simp only [pathText, pureWindows, if_true, if_neg this]
      rw [if_pos (by decide)]
      exact pJoin_names h2 hn
    | false =>
      have hd : drive = [] := h1.resolve_left (by simp)
      subst hd
      exact pJoin_names h2 hn
  simp only [processPath, e, bind, Except.bind]
  rw [split_names hn h2]

example : processPath (.pure (pureWindows p!"C:" true [p!"a", p!"b"])) = .ok (p!"a", p!"b") ∧ (pureWindows p!"C:" true [p!"a", p!"b"]).str = p!"C:\\a\\b" := by decide

/-- C67. All methods do the same for paths that are taken for the same. -/
theorem C67_methods (p q : PathArg) (h : processPath p = processPath q) (x : Ctx) (n : Nat) (v : Val) (F : FileS) :
    fileRead x n p F = fileRead x n q F ∧ fileWrite x n p v F = fileWrite x n q v F ∧ fileDel p F = fileDel q F ∧ fileContains p F = fileContains q F := by
  have hc : checkPath x.o.refsPath p = checkPath x.o.refsPath q := by unfold checkPath; rw [h]
  refine ⟨?_, ?_, ?_, ?_⟩
  · simp only [fileRead, fileReads, checkPaths, hc]
  · simp only [fileWrite, fileWrites, checkItems, hc]
  · simp only [fileDel, h]
  · simp only [fileContains, h]

/-- C67. A `PurePath` of the current directory or of a root that is not a single slash raises TypeError, although the str addresses the root Group; and two slashes are
forgotten before `..` is resolved, so that another name is addressed. -/
theorem C67_counterexample : processPath (.pure (purePosix p!".")) = .error .typeError ∧ processPath (.str (purePosix p!".").str) = .ok (p!"/", p!".") ∧
    processPath (.pure (purePosix p!"//")) = .error .typeError ∧ processPath (.str (purePosix p!"//").str) = .ok (p!"//", p!".") ∧
    processPath (.pure (pureWindows p!"C:" true [])) = .error .typeError ∧
    processPath (.pure (purePosix p!"//../a")) = .ok (p!"..", p!"a") ∧ processPath (.str (purePosix p!"//../a").str) = .ok (p!"//", p!"a") := by decide

end HS
