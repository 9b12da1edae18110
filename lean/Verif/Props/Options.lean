import Verif.Lemmas.Options
/-
C08–C10: the `Options` class.
-/
namespace HS
open Spec Opt

/-- The options objects that can exist: constructed with arbitrary arguments, then assigned to arbitrarily. -/
def ReachableOptions (o : Options) : Prop :=
  ∃ (args : Opt → PyVal) (o0 : Options) (l : List (Opt × PyVal)), newOptions args = .ok o0 ∧ o = l.foldl assign o0

theorem reachable_inv (o : Options) (h : ReachableOptions o) : AllValid o ∧ TableInv [] o := by
  obtain ⟨args, o0, l, h1, rfl⟩ := h
  exact assigns_inv l o0 (newOptions_inv args o0 h1)

/-- C08. Whenever `matlab_compatible` is True every option of the documented table has its MATLAB value. -/
theorem C08_matlab_table (o : Options) (h : ReachableOptions o) (hm : o matlabCompatible = .bool true) :
    ∀ n w, (n, w) ∈ matlabTable → o n = w := by
  intro n w hw
  exact (reachable_inv o h).2 n w hw (by simp) hm

/-- C08, converse use: assigning True always succeeds and establishes the table, whatever the state was. -/
theorem C08_set_true (o : Options) : ∃ o', setOpt matlabCompatible (.bool true) o = .ok o' ∧
    o' matlabCompatible = .bool true ∧ ∀ n w, (n, w) ∈ matlabTable → o' n = w :=
  ⟨_, rfl, (setMatlab_true o).1, (setMatlab_true o).2.1⟩

/-- C08: moving any table option off its MATLAB value turns `matlab_compatible` off. -/
theorem C08_leaving_table (o o' : Options) (h : ReachableOptions o) (n : Opt) (v w : PyVal)
    (hw : (n, w) ∈ matlabTable) (hs : setOpt n v o = .ok o') (hne : o' n ≠ w) :
    o' matlabCompatible = .bool false := by
  have hv := setOpt_valid n v o o' (reachable_inv o h).1 hs
  obtain ⟨b, hb⟩ : ∃ b, o' matlabCompatible = .bool b := hv matlabCompatible
  cases b with
  | false => exact hb
  | true =>
    exfalso
    apply hne
    have hn : n ≠ matlabCompatible := by rintro rfl; exact mc_not_table w hw
    exact (setOpt_spec n hn v o o' (reachable_inv o h).1 hs).table w hw hb

-- The default options are reachable and MATLAB compatible; after `oned_as='column'` too.
example : ∃ o0, newOptions Options.default = .ok o0 ∧ o0 matlabCompatible = .bool true ∧
    assign o0 (onedAs, .str p!"column") matlabCompatible = .bool true := by
  refine ⟨_, rfl, ?_, ?_⟩ <;> rfl

-- An assignment of an invalid table value does not turn it off; a valid non-MATLAB one does.
example : ∃ o0, newOptions Options.default = .ok o0 ∧
    assign o0 (complexNames, .tuple [.str p!"re"]) matlabCompatible = .bool true ∧
    assign o0 (complexNames, .tuple [.str p!"re", .str p!"im"]) matlabCompatible = .bool false := by
  refine ⟨_, rfl, ?_, ?_⟩ <;> rfl

/-- C09. Every option always has its documented type and range. -/
theorem C09_always_valid (o : Options) (h : ReachableOptions o) : ∀ n, validOpt n (o n) :=
  (reachable_inv o h).1

/-- C09. A valid value is taken, an invalid one leaves the option as it is. -/
theorem C09_assignment (o o' : Options) (h : ReachableOptions o) (n : Opt) (v : PyVal)
    (hs : setOpt n v o = .ok o') : (validOpt n v → o' n = v) ∧ (¬ validOpt n v → o' n = o n) := by
  by_cases hn : n = matlabCompatible
  · subst hn
    simp only [setOpt, Except.ok.injEq] at hs
    subst hs
    constructor
    · rintro ⟨b, rfl⟩
      cases b with
      | true => exact (setMatlab_true o).1
      | false => rw [setMatlab_false, put_same]
    · intro hv; rw [setMatlab_other v o hv]
  · have s := setOpt_spec n hn v o o' (reachable_inv o h).1 hs
    exact ⟨s.set_valid, s.keep_invalid⟩

/-- C09. Other options are not touched: only `matlab_compatible` may become False, and only setting it to True changes
others (those of the table). -/
theorem C09_frame (o o' : Options) (h : ReachableOptions o) (n : Opt) (v : PyVal) (hs : setOpt n v o = .ok o')
    (m : Opt) (hm : m ≠ n) :
    o' m = o m ∨ (m = matlabCompatible ∧ o' m = .bool false) ∨
    (n = matlabCompatible ∧ v = .bool true ∧ (m, o' m) ∈ matlabTable) := by
  by_cases hn : n = matlabCompatible
  · subst hn
    simp only [setOpt, Except.ok.injEq] at hs
    subst hs
    by_cases hb : ∃ b, v = .bool b
    · obtain ⟨b, rfl⟩ := hb
      cases b with
      | false => left; rw [setMatlab_false, put_ne _ _ _ _ hm]
      | true =>
        by_cases ht : m ∈ matlabTable.map (·.1)
        · obtain ⟨⟨m', w⟩, hw, rfl⟩ := List.mem_map.mp ht
          right; right
          exact ⟨rfl, rfl, by rw [(setMatlab_true o).2.1 m' w hw]; exact hw⟩
        · left; exact (setMatlab_true o).2.2 m hm ht
    · left; rw [setMatlab_other v o hb]
  · have s := setOpt_spec n hn v o o' (reachable_inv o h).1 hs
    by_cases hmc : m = matlabCompatible
    · subst hmc
      rcases s.mc with h | h
      · left; exact h
      · right; left; exact ⟨rfl, h⟩
    · left; exact s.frame m hm hmc

/-- C09. The only exception an assignment can raise is `TypeError`, exactly when an unhashable value is given to one of the
three enumerations. -/
theorem C09_raises (o : Options) (n : Opt) (v : PyVal) (e : Exc) :
    setOpt n v o = .error e ↔
      (e = .typeError ∧ v.hashable = false ∧
        n ∈ [actionForMatlabIncompatible, onedAs, compressionAlgorithm]) := by
  have he : ∀ n l, setEnum n l v o = .error e ↔ e = .typeError ∧ v.hashable = false := by
    intro n l
    simp only [setEnum, PyVal.inStrs, bind, Except.bind]
    cases hh : v.hashable with
    | true =>
      have hx : ∀ b : Bool, (if b = true then (.ok (o.put n v) : Res Options) else .ok o) ≠ .error e := by
        intro b; cases b <;> simp
      simp [hx]
    | false => simp [eq_comm]
  cases n <;> simp [setOpt, he]
  simp only [setCompressionAlgorithm, PyVal.inStrs, bind, Except.bind]
  cases hh : v.hashable with
  | true => simp
  | false => simp [eq_comm]

/-- C09. What the constructor makes of its arguments: `matlab_compatible` is taken if it is a bool; with `matlab_compatible=True` the options of the table have their
MATLAB values whatever was given for them; every other option has the given value if it is valid and its default otherwise. -/
theorem C09_constructor (args : Opt → PyVal) (o : Options) (h : newOptions args = .ok o) :
    (∀ b, args matlabCompatible = .bool b → o matlabCompatible = .bool b) ∧
    (args matlabCompatible = .bool true → ∀ n w, (n, w) ∈ matlabTable → o n = w) ∧
    ∀ n, n ≠ matlabCompatible → ¬ (args matlabCompatible = .bool true ∧ n ∈ matlabTable.map (·.1)) →
      (validOpt n (args n) → o n = args n) ∧ (¬ validOpt n (args n) → o n = Options.default n) := newOptions_value args o h

-- Some arguments, a valid one, an invalid one and one of the table.
example : ∃ o, newOptions (fun n => if n = onedAs then .str p!"column" else if n = gzipCompressionLevel then .int 10 else if n = makeAtleast2d then .bool false else Options.default n) = .ok o ∧
    o onedAs = .str p!"column" ∧ o gzipCompressionLevel = .int 7 ∧ o makeAtleast2d = .bool true := ⟨_, rfl, rfl, rfl, rfl⟩

example : setOpt onedAs (.list []) Options.default = .error .typeError := rfl
example : validOpt gzipCompressionLevel (.int 9) ∧ ¬ validOpt gzipCompressionLevel (.int 10) := by
  refine ⟨Or.inl ⟨9, rfl, by decide, by decide⟩, ?_⟩
  rintro (⟨i, h, h1, h2⟩ | ⟨b, h⟩)
  · injection h with h; omega
  · cases h

/-- C10 (partial). `group_for_references` is always an absolute path, and it is not the root unless it is a spelling of the
POSIX double-slash root `//`.  Missing: the setter accepts `//` (`C10_counterexample`, finding F10). -/
theorem C10_group_for_references_partial (o : Options) (h : ReachableOptions o) :
    ∃ s, o groupForReferences = .str s ∧ s.head? = some 47 ∧
      (hdf5Names s ≠ [] ∨ normpath s = p!"//") := by
  obtain ⟨s, h1, h2, h3⟩ := C09_always_valid o h groupForReferences
  refine ⟨s, h1, h2, ?_⟩
  by_cases hn : hdf5Names s = []
  · right
    have hn' : names s = [] := by rw [names, hn]; rfl
    rw [normpath_eq, hn'] at h3 ⊢
    simp only [joinSlash, List.append_nil] at h3 ⊢
    rcases lead_cases s with hl | hl | hl
    · rw [hl] at h3; simp at h3
    · rw [hl] at h3; simp at h3
    · rw [hl]; rfl
  · left; exact hn

/-- F10: the root spelled `//` is accepted. -/
theorem C10_counterexample : ∃ o, ReachableOptions o ∧ o groupForReferences = .str p!"//" ∧ hdf5Names p!"//" = [] := by
  obtain ⟨o0, h0⟩ : ∃ o0, newOptions Options.default = .ok o0 := ⟨_, rfl⟩
  refine ⟨assign o0 (groupForReferences, .str p!"//"), ⟨Options.default, o0, [(groupForReferences, .str p!"//")], h0, rfl⟩, ?_, by decide⟩
  have hs : setOpt groupForReferences (.str p!"//") o0 = .ok (setGroupForReferences (.str p!"//") o0) := rfl
  have hr : ReachableOptions o0 := ⟨Options.default, o0, [], h0, rfl⟩
  have := (C09_assignment o0 _ hr _ _ hs).1 ⟨p!"//", rfl, rfl, by decide⟩
  simp only [assign, hs]; exact this

end HS
