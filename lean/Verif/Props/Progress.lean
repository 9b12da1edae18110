import Verif.Lemmas.ProgressFile
import Verif.Props.RoundTrip
import Verif.Props.Local
import Verif.Props.Refs
/-
Writing succeeds: C56.
-/
namespace HS
open Spec

theorem writable_all {x : Ctx} {v : Val} (hv : Writable x.o v) :
    ∃ n0, ∀ n, n0 ≤ n → RefsOk x → CanOverwrite x.o → NamesOk x.o → WrGo x (writeData x n) v := by
  by_cases h : RefsOk x ∧ CanOverwrite x.o ∧ NamesOk x.o
  · obtain ⟨n0, hn⟩ := writable_go h.1 h.2.1 h.2.2 hv
    exact ⟨n0, fun n h1 _ _ _ => hn n h1⟩
  · exact ⟨0, fun n _ h1 h2 h3 => absurd ⟨h1, h2, h3⟩ h⟩

/-- A dict of a list with a complex number, an array and a structured array, for examples. -/
def exMixed : Val := .dict .dict [.str p!"a", .str p!"b", .bytes p!"c"]
  [.seq .list [.int 1, .none, .complex 1 2], .np .ndarray ⟨.f16, [], [.num 3]⟩, .npStruct .ndarray [2] [p!"f", p!"g"] [.base .i64 [], .base .object []] [.int 1, .str p!"x", .int 2, .seq .tuple []]]

/-- The default options, but types that MATLAB does not have are written and strings are not converted. -/
def exXfree : Ctx := ⟨{ exOpts with action := .ignore, str16 := false }, exX.rng, 5⟩

theorem ex_mixed : Writable exXfree.o exMixed := by
  have t : ∀ s : Str, (!s.isEmpty && s.all (· < 128)) = true → s ≠ [] ∧ Ascii s := fun s h => by
    rw [Bool.and_eq_true] at h
    exact ⟨by simpa using h.1, ascii_all h.2⟩
  refine .dictText _ _ _ [p!"a", p!"b", p!"c"] (.cons (.str _) (.cons (.str _) (.cons (.bytes p!"c" p!"c" (by decide)) .nil))) ?_ ?_ ?_
  · intro tv htv
    have := t tv.1 (by
      have := (List.of_mem_zip (a := tv.1) (b := tv.2) htv).1
      revert this
      generalize tv.1 = k
      simp only [List.mem_cons, List.not_mem_nil, or_false]
      rintro (rfl | rfl | rfl) <;> rfl)
    exact ⟨this.1, ascii_scalars this.2, fun _ _ => this.2⟩
  · simp only [List.mem_cons, List.not_mem_nil, or_false]
    rintro k (rfl | rfl | rfl) <;> exact ascii_scalars (ascii_all rfl)
  · have pn : PartNames exXfree.o := ⟨by decide, by decide, by decide⟩
    simp only [List.mem_cons, List.not_mem_nil, or_false]
    rintro w (rfl | rfl | rfl)
    · refine .seq _ _ ?_
      simp only [List.mem_cons, List.not_mem_nil, or_false]
      rintro w (rfl | rfl | rfl)
      · exact .int _
      · exact .none
      · exact .complex _ _ pn
    · refine .np _ _ ⟨rfl, ?_, ?_⟩ (fun _ h => by cases h) (by rintro (h | h) <;> cases h) (fun h => by cases h)
      · simp [FitsDT]
      · simp
    · refine .npStruct _ _ _ _ _ (fun _ h => by cases h) (Or.inl rfl) rfl ?_ (fun _ h => by cases h) ?_
      · simp only [List.mem_cons, List.not_mem_nil, or_false]
        rintro k (rfl | rfl)
        · exact ⟨by decide, ascii_scalars (ascii_all rfl)⟩
        · exact ⟨by decide, ascii_scalars (ascii_all rfl)⟩
      · simp only [List.mem_cons, List.not_mem_nil, or_false]
        rintro w (rfl | rfl | rfl | rfl)
        · exact .int _
        · exact .str _
        · exact .int _
        · exact .seq _ _ (fun _ h => by cases h)

-- A structured array with a subarray of float64 and a nested structured field can be written as one Dataset.
example : Writable { exXfree.o with structAsStruct := false } (.npStruct .ndarray [1] [p!"a", p!"b"] [.base .f64 [2], .struct [p!"c"] [.base .u8 []] []]
    [.np .ndarray ⟨.f64, [2], [.num 1, .num 2]⟩, .npStruct .scalar [] [p!"c"] [.base .u8 []] [.np .scalar ⟨.u8, [], [.num 3]⟩]]) := by
  have nm : ∀ n : Str, nameHasNull n = false → n.all (· < 128) = true → Scalars n ∧ ¬ NulName n :=
    fun n h1 h2 => ⟨ascii_scalars (ascii_all h2), fun h => by rw [(nulName_iff n).mpr h] at h1; cases h1⟩
  refine .npTable _ _ _ _ _ (fun _ h => by cases h) rfl (.struct _ _ _ (by simp) ?_ (by simp) ?_)
  · simp only [List.mem_cons, List.not_mem_nil, or_false]
    rintro n (rfl | rfl) <;> exact nm _ rfl rfl
  · simp only [List.mem_cons, List.not_mem_nil, or_false]
    rintro t (rfl | rfl)
    · exact .base _ _ nofun nofun nofun nofun nofun nofun (by simp)
    · refine .struct _ _ _ (by simp) ?_ (by simp) ?_
      · simp only [List.mem_cons, List.not_mem_nil, or_false]
        rintro n rfl
        exact nm _ rfl rfl
      · simp only [List.mem_cons, List.not_mem_nil, or_false]
        rintro t rfl
        exact .base _ _ nofun nofun nofun nofun nofun nofun (by simp)

/-- In the empty file of the examples every value can be written. -/
theorem ex_canWrite {x : Ctx} (hr : x.o.refsPath = p!"/#refs#") (ho : CanOverwrite x.o) (hn : NamesOk x.o) (v : Val) :
    CanWrite x exF (.str p!"/x/y") [p!"x", p!"y"] v ∧ OwnRefs x exF ∧ ¬ Exists exF.st.heap [p!"x", p!"y"] := by
  have hl : hdf5Names x.o.refsPath = [p!"#refs#"] := by rw [hr]; decide
  have way : ∀ l, WayFree exF.st.heap l := by
    intro l m q _ _ h
    cases h with
    | root => rfl
    | snoc _ h => exact (linkAt_single h).elim
  refine ⟨⟨⟨by rw [hr]; rfl, by rw [hl]; simp⟩, ?_, rfl, rfl, ⟨p!"/x", p!"y", by decide, by decide⟩, by simp, by rw [hl]; decide, ?_, ?_, ho, way _, way _, ?_, ?_, hn⟩, Or.inr ⟨rfl, ?_⟩,
    ex_free _ (by simp)⟩
  · exact .opened _ _ ⟨fun _ _ _ h => (linkAt_single h).elim, rfl, fun _ _ h => linkAt_single h, fun _ _ _ _ _ h => (linkAt_single h).elim⟩
  · simp only [List.mem_cons, List.not_mem_nil, or_false]
    rintro k (rfl | rfl) <;> exact ascii_scalars (ascii_all rfl)
  · simp only [List.mem_cons, List.not_mem_nil, or_false]
    rintro _ _ k (rfl | rfl) <;> exact ascii_all rfl
  · rw [hl]
    simp only [List.mem_cons, List.not_mem_nil, or_false]
    rintro k rfl
    exact ⟨ascii_scalars (ascii_all rfl), fun _ => ascii_all rfl⟩
  · intro ob hob b hb
    rcases List.mem_cons.mp hob with rfl | h
    · cases hb
    · cases h
  · rw [hl]; exact ex_free _ (by simp)

-- The nested value can be written to the empty file.
example : Writable exXfree.o exMixed ∧ CanWrite exXfree exF (.str p!"/x/y") [p!"x", p!"y"] exMixed ∧ OwnRefs exXfree exF ∧ ¬ Exists exF.st.heap [p!"x", p!"y"] :=
  ⟨ex_mixed, ex_canWrite rfl (fun _ => rfl) ⟨by decide, by decide⟩ _⟩

/-- C56. Writing a value of any kind and nesting that can be written, with a recursion limit large enough for it, to any acceptable place of any file in any state it
can be in, whether or not there is something at that place, and under any options: it raises nothing.  The only exception is a references Group that this `File` did
not make in which the names that are drawn at random are all in use (the program goes on drawing names; the model gives up after `x.hang`). -/
theorem C56_write_succeeds {x : Ctx} {v : Val} (hv : Writable x.o v) : ∃ n0, ∀ n, n0 ≤ n → ∀ (F : FileS) (p : PathArg) (ns : List Str), CanWrite x F p ns v →
    (fileWrite x n p v F).1 = .ok () ∨ ((fileWrite x n p v F).1 = .error .other ∧ Unlucky x (fileWrite x n p v F).2.st ∧ ¬ OwnRefs x F) := by
  obtain ⟨n0, h⟩ := writable_all hv
  refine ⟨n0, fun n hn F p ns hc => ?_⟩
  rcases canWrite_go hc (h n hn hc.refsOk hc.over hc.names) with ⟨h1, _⟩ | h1
  · exact Or.inl h1
  · exact Or.inr h1

/-- C56. In a file without references Group, or with one this `File` has made, it always succeeds; that stays so, and no random numbers are drawn. -/
theorem C56_own_refs {x : Ctx} {v : Val} (hv : Writable x.o v) : ∃ n0, ∀ n, n0 ≤ n → ∀ (F : FileS) (p : PathArg) (ns : List Str), CanWrite x F p ns v → OwnRefs x F →
    ∃ F', fileWrite x n p v F = (.ok (), F') ∧ OwnRefs x F' ∧ F'.st.rpos = F.st.rpos := by
  obtain ⟨n0, h⟩ := writable_all hv
  refine ⟨n0, fun n hn F p ns hc hk => ?_⟩
  rcases canWrite_go hc (h n hn hc.refsOk hc.over hc.names) with ⟨h1, h2, _⟩ | ⟨_, _, h1⟩
  · exact ⟨_, pair_of_fst h1, h2 hk⟩
  · exact absurd hk h1

/-- C56. Writing to an unused place and reading back, with no condition on what the write does: a value that can be written and survives a round trip is written
without an exception and reads back equal, from then on and under all circumstances of `ReadsBack`. -/
theorem C56_round_trip {x : Ctx} {v : Val} (ho : RtOpts x.o) (hv : Writable x.o v) (hg : Good x.o v) : ∃ n0, ∀ n, n0 ≤ n → ∀ (F : FileS) (p : PathArg) (ns : List Str),
    CanWrite x F p ns v → OwnRefs x F → ¬ Exists F.st.heap ns → ∃ F', fileWrite x n p v F = (.ok (), F') ∧ ReadsBack x n F'.st.heap ns v := by
  obtain ⟨n0, h⟩ := C56_own_refs hv
  refine ⟨n0, fun n hn F p ns hc hk hf => ?_⟩
  obtain ⟨F', h1, _, h3⟩ := h n hn F p ns hc hk
  exact ⟨F', h1, file_rt ho ⟨hc.refs, hc.reach, hc.rw, hc.addr, hc.notRoot, hf, (fun i j _ _ hj => by rw [h3] at hj; omega), h1⟩ hg⟩

-- A dict with a list under the default options: it can be written, and it survives a round trip.
example : RtOpts exX.o ∧ Writable exX.o (.dict .dict [.str p!"a"] [.seq .list [.int 1, .none]]) ∧ Good exX.o (.dict .dict [.str p!"a"] [.seq .list [.int 1, .none]]) ∧
    CanWrite exX exF (.str p!"/x/y") [p!"x", p!"y"] (.dict .dict [.str p!"a"] [.seq .list [.int 1, .none]]) ∧ OwnRefs exX exF ∧ ¬ Exists exF.st.heap [p!"x", p!"y"] := by
  refine ⟨ex_rtOpts, ?_, ?_, ex_canWrite rfl (fun _ => rfl) ex_rtOpts.names _⟩
  · refine .dictText _ _ _ [p!"a"] (.cons (.str _) .nil) ?_ ?_ ?_
    · intro tv htv
      have := (List.of_mem_zip (a := tv.1) (b := tv.2) htv).1
      simp only [List.mem_cons, List.not_mem_nil, or_false] at this
      rw [this]
      exact ⟨by decide, ascii_scalars (ascii_all rfl), fun _ _ => ascii_all rfl⟩
    · simp only [List.mem_cons, List.not_mem_nil, or_false]
      rintro k rfl
      exact ascii_scalars (ascii_all rfl)
    · simp only [List.mem_cons, List.not_mem_nil, or_false]
      rintro w rfl
      refine .seq _ _ ?_
      simp only [List.mem_cons, List.not_mem_nil, or_false]
      rintro w (rfl | rfl)
      · exact .int _
      · exact .none
  · refine .dictText _ _ _ [p!"a"] (.cons (.str _) .nil) (by decide) rfl ?_
    simp only [List.mem_cons, List.not_mem_nil, or_false]
    rintro w rfl
    refine .seq _ _ (fun h => by cases h) ?_
    simp only [List.mem_cons, List.not_mem_nil, or_false]
    rintro w (rfl | rfl)
    · exact .int _
    · exact .none

/-- A list of different members of another list is not longer. -/
theorem nodup_le {α : Type} [DecidableEq α] {a b : List α} (ha : a.Nodup) (h : ∀ y ∈ a, y ∈ b) : a.length ≤ b.length := by
  induction a generalizing b with
  | nil => exact Nat.zero_le _
  | cons c a ih =>
    have hc : c ∈ b := h c (by simp)
    have hb := List.length_erase_of_mem hc
    have := ih (b := b.erase c) (List.nodup_cons.mp ha).2 (fun y hy => by
      have hne : y ≠ c := fun e => (List.nodup_cons.mp ha).1 (e ▸ hy)
      exact (List.mem_erase_of_ne hne).mpr (h y (List.mem_cons_of_mem _ hy)))
    have hp := List.length_pos_of_mem hc
    simp only [List.length_cons]
    omega

/-- C56. With a references Group that this `File` did not make it succeeds if the numbers drawn are different and the references Group has fewer than `x.hang`
entries afterwards. -/
theorem C56_foreign_refs {x : Ctx} {v : Val} (hv : Writable x.o v) (hpos : 0 < x.hang) : ∃ n0, ∀ n, n0 ≤ n → ∀ (F : FileS) (p : PathArg) (ns : List Str), CanWrite x F p ns v →
    DistinctDraws x 0 (fileWrite x n p v F).2.st.rpos →
    (∀ r, LPath (fileWrite x n p v F).2.st.heap (hdf5Names x.o.refsPath) r → (linksOf (fileWrite x n p v F).2.st.heap r).length < x.hang) →
    (fileWrite x n p v F).1 = .ok () := by
  obtain ⟨n0, h⟩ := C56_write_succeeds hv
  refine ⟨n0, fun n hn F p ns hc hd hl => ?_⟩
  rcases h n hn F p ns hc with h1 | ⟨_, ⟨h2, h3⟩, _⟩
  · exact h1
  exfalso
  generalize hs : (fileWrite x n p v F).2.st = s at hd hl h2 h3
  obtain ⟨q0, hq0⟩ := h3 (s.rpos - x.hang) (Nat.le_refl _) (by omega)
  obtain ⟨r, hr, _⟩ := lpath_snoc hq0
  have hlen := hl r hr
  have hmem : ∀ nm ∈ (List.range x.hang).map (fun i => randName x (s.rpos - x.hang + i)), nm ∈ (linksOf s.heap r).map (·.1) := by
    intro nm hnm
    obtain ⟨i, hi, rfl⟩ := List.mem_map.mp hnm
    have hi := List.mem_range.mp hi
    obtain ⟨q, hq⟩ := h3 (s.rpos - x.hang + i) (by omega) (by omega)
    obtain ⟨r', hr', hl'⟩ := lpath_snoc hq
    rw [lpath_fun hr' hr] at hl'
    exact List.mem_map.mpr ⟨_, aget_mem _ _ _ hl', rfl⟩
  have hnd : ((List.range x.hang).map (fun i => randName x (s.rpos - x.hang + i))).Nodup := by
    unfold List.Nodup
    rw [List.pairwise_map]
    refine List.pairwise_lt_range.imp_of_mem ?_
    intro i j hi hj hij he
    have hj := List.mem_range.mp hj
    exact hd _ _ (Nat.zero_le _) (by omega) (by omega) (randName_inj x he)
  have := nodup_le hnd hmem
  simp only [List.length_map, List.length_range] at this
  omega

theorem ex_prefix {a : List Str} {n : Str} (h : a <+: [n]) (hn : a ≠ [n]) : a = [] := by
  obtain ⟨t, h⟩ := h
  cases a with
  | nil => rfl
  | cons b a =>
    cases a with
    | nil =>
      simp only [List.cons_append, List.cons.injEq] at h
      exact absurd (by rw [h.1]) hn
    | cons c a => simp at h

theorem ex_wayFree {h : Heap} {n : Str} (h0 : isGroup h 0 = true) : WayFree h [n] := by
  intro l q hp hne hl
  rw [ex_prefix hp hne] at hl
  rw [lpath_nil hl]
  exact h0

/-- The default options with more draws before giving up. -/
def exXlong : Ctx := ⟨exOpts, exX.rng, 50⟩

-- A file with a references Group, opened again: a list, which needs new names there, can be written.
example : ∃ F : FileS, Writable exXlong.o (.seq .list [.int 1, .none]) ∧ CanWrite exXlong F (.str p!"/x") [p!"x"] (.seq .list [.int 1, .none]) ∧ ¬ OwnRefs exXlong F ∧ 0 < exXlong.hang ∧
    DistinctDraws exXlong 0 (fileWrite exXlong 10 (.str p!"/x") (.seq .list [.int 1, .none]) F).2.st.rpos ∧
    (∀ r, LPath (fileWrite exXlong 10 (.str p!"/x") (.seq .list [.int 1, .none]) F).2.st.heap (hdf5Names exXlong.o.refsPath) r →
      (linksOf (fileWrite exXlong 10 (.str p!"/x") (.seq .list [.int 1, .none]) F).2.st.heap r).length < exXlong.hang) := by
  have ht : Tree exRefs.heap := (hist_keep (x := exX) ⟨rfl, by decide⟩ ex_rtOpts.names exRefs_hist).2.1
  refine ⟨FileS.new exRefs.heap true, ?_, ⟨⟨rfl, by decide⟩, .opened _ _ ht, rfl, rfl, ⟨p!"/", p!"x", by decide, by decide⟩, by simp, by decide, ?_, fun _ h => h.elim, fun _ => rfl,
    ex_wayFree (by decide +kernel), ?_, ?_, ?_, ex_rtOpts.names⟩, ?_, by decide, ?_, ?_⟩
  · refine .seq _ _ ?_
    simp only [List.mem_cons, List.not_mem_nil, or_false]
    rintro w (rfl | rfl)
    · exact .int _
    · exact .none
  · simp only [List.mem_cons, List.not_mem_nil, or_false]
    rintro k rfl
    exact ascii_scalars (ascii_all rfl)
  · rw [show hdf5Names exXlong.o.refsPath = [p!"#refs#"] from by decide]
    exact ex_wayFree (by decide +kernel)
  · rw [show hdf5Names exXlong.o.refsPath = [p!"#refs#"] from by decide]
    simp only [List.mem_cons, List.not_mem_nil, or_false]
    rintro k rfl
    exact ⟨ascii_scalars (ascii_all rfl), fun _ => ascii_all rfl⟩
  · have : ∀ ob ∈ exRefs.heap, (match aget ob.attrs p!"MATLAB_class" with | some (.bytes b) => (utf8Dec b).isOk | _ => true) = true := by decide +kernel
    intro ob hob b hb
    have := this ob hob
    change (match aget ob.attrs p!"MATLAB_class" with | some (.bytes b) => (utf8Dec b).isOk | _ => true) = true at this
    rw [hb] at this
    cases hd : utf8Dec b with
    | ok s => exact ⟨s, rfl⟩
    | error e => dsimp only at this; rw [hd] at this; cases this
  · rintro (h | ⟨_, h⟩)
    · cases h
    · apply h
      rw [show hdf5Names exXlong.o.refsPath = [p!"#refs#"] from by decide]
      have : (aget (linksOf exRefs.heap 0) p!"#refs#").isSome = true := by decide +kernel
      obtain ⟨q, hq⟩ := Option.isSome_iff_exists.mp this
      exact ⟨q, .snoc (l := []) .root hq⟩
  · have : (fileWrite exXlong 10 (.str p!"/x") (.seq .list [.int 1, .none]) (FileS.new exRefs.heap true)).2.st.rpos = 2 := by decide +kernel
    rw [this]
    intro i j _ h1 h2
    obtain ⟨rfl, rfl⟩ : i = 0 ∧ j = 1 := by omega
    decide
  · intro r hr
    rw [show hdf5Names exXlong.o.refsPath = [p!"#refs#"] from by decide] at hr
    have hres := resolve_lpath (h := (fileWrite exXlong 10 (.str p!"/x") (.seq .list [.int 1, .none]) (FileS.new exRefs.heap true)).2.st.heap) (fun k hk => by simp only [List.mem_cons, List.not_mem_nil, or_false] at hk; rw [hk]; decide) hr
    have : (match resolve (fileWrite exXlong 10 (.str p!"/x") (.seq .list [.int 1, .none]) (FileS.new exRefs.heap true)).2.st.heap 0 [p!"#refs#"] with
      | some r => decide ((linksOf (fileWrite exXlong 10 (.str p!"/x") (.seq .list [.int 1, .none]) (FileS.new exRefs.heap true)).2.st.heap r).length < 50)
      | none => true) = true := by decide +kernel
    rw [hres] at this
    exact of_decide_eq_true this

/-- What the conditions are for: a zero-dimensional array of str raises with default options (F15), and so does a dict whose path is not ASCII (F23), and writing
below a Dataset. -/
theorem C56_counterexample : (fileWrite exX 10 (.str p!"/x/y") (.np .ndarray ⟨.str 1, [], [.units [97]]⟩) exF).1 = .error .indexError ∧
    (fileWrite exX 10 (.str [47, 233]) (.dict .dict [.str p!"a"] [.dict .dict [] []]) exF).1 = .error .unicodeError ∧
    (fileWrite exX 10 (.str p!"/x/y") (.int 2) (fileWrite exX 10 (.str p!"/x") (.int 1) exF).2).1 = .error .typeError := by
  refine ⟨?_, ?_, ?_⟩
  · exact eq_of_isExc (by decide +kernel)
  · exact eq_of_isExc (by decide +kernel)
  · exact eq_of_isExc (by decide +kernel)

end HS
