import Verif.Spec.Options
import Verif.Lemmas.PosixPath
namespace HS
open Spec Opt

/-- Every option has a valid value. -/
def AllValid (o : Options) : Prop := ∀ n, validOpt n (o n)

theorem put_same (o : Options) (n : Opt) (v : PyVal) : (o.put n v) n = v := by simp [Options.put]
theorem put_ne (o : Options) (n m : Opt) (v : PyVal) (h : m ≠ n) : (o.put n v) m = o m := by simp [Options.put, h]

theorem default_valid : AllValid Options.default := by
  intro n
  cases n <;> simp [validOpt, Options.default] <;> first | decide | exact ⟨_, rfl⟩

theorem isAbs_normpath (s : Str) (h : 1 < (normpath s).length) : isAbs (normpath s) = isAbs s := by
  rw [normpath_eq] at h ⊢
  split
  · rename_i hh; simp [hh] at h
  · rename_i hh
    cases ha : isAbs s with
    | true =>
      have := lead_abs s ha
      rcases lead_cases s with hl | hl | hl
      · exact absurd hl this
      · rw [hl]; rfl
      · rw [hl]; rfl
    | false =>
      rw [lead_rel s ha] at hh ⊢
      simp only [List.nil_append] at hh ⊢
      have hne : names s ≠ [] := by intro hn; rw [hn] at hh; exact hh rfl
      obtain ⟨c, r, hj, hc⟩ := joinSlash_head _ hne (names_isName s)
      rw [hj]; simp [isAbs, hc]

/-- What one assignment to an option other than `matlab_compatible` does. -/
structure StepSpec (n : Opt) (v : PyVal) (o o' : Options) : Prop where
  set_valid : validOpt n v → o' n = v
  keep_invalid : ¬ validOpt n v → o' n = o n
  frame : ∀ m, m ≠ n → m ≠ matlabCompatible → o' m = o m
  mc : o' matlabCompatible = o matlabCompatible ∨ o' matlabCompatible = .bool false
  table : ∀ w, (n, w) ∈ matlabTable → o' matlabCompatible = .bool true → o' n = w

theorem step_tableBool (n : Opt) (v : PyVal) (o : Options) (hn : n ≠ matlabCompatible)
    (hv : ∀ v, validOpt n v ↔ ∃ b, v = .bool b) (ho : ∃ b, o n = .bool b)
    (ht : ∀ w, (n, w) ∈ matlabTable → w = .bool true) : StepSpec n v o (setTableBool n v o) := by
  obtain ⟨b0, hb0⟩ := ho
  have hfin : ∀ o1 : Options, (∃ b, o1 n = .bool b) → (∀ m, m ≠ n → o1 m = o m) →
      let o2 := if !(o1 n).truthy then o1.put .matlabCompatible (.bool false) else o1
      o2 n = o1 n ∧ (∀ m, m ≠ n → m ≠ matlabCompatible → o2 m = o m) ∧
      (o2 matlabCompatible = o matlabCompatible ∨ o2 matlabCompatible = .bool false) ∧
      (o2 matlabCompatible = .bool true → o2 n = .bool true) := by
    intro o1 ⟨b, hb⟩ hfr
    cases b with
    | true =>
      simp [hb, PyVal.truthy]
      exact ⟨fun m h1 _ => hfr m h1, Or.inl (hfr _ (Ne.symm hn))⟩
    | false =>
      simp [hb, PyVal.truthy, put_same, put_ne _ _ _ _ hn]
      intro m h1 h2
      rw [put_ne _ _ _ _ h2, hfr m h1]
  cases hvb : v.isBool with
  | true =>
    have hval : ∃ b, v = .bool b := by cases v <;> simp [PyVal.isBool] at hvb; exact ⟨_, rfl⟩
    have h := hfin (o.put n v) (by rw [put_same]; exact hval) (fun m hm => put_ne _ _ _ _ hm)
    simp only [setTableBool, hvb, if_true] at h ⊢
    refine ⟨fun _ => by rw [h.1, put_same], fun hh => absurd ((hv v).mpr hval) hh, h.2.1, h.2.2.1, ?_⟩
    intro w hw hmc; rw [ht w hw]; exact h.2.2.2 hmc
  | false =>
    have hval : ¬ validOpt n v := by
      rw [hv]; rintro ⟨b, rfl⟩; simp [PyVal.isBool] at hvb
    have h := hfin o ⟨b0, hb0⟩ (fun m _ => rfl)
    simp only [setTableBool, hvb] at h ⊢
    simp only [Bool.false_eq_true, if_false]
    refine ⟨fun hh => absurd hh hval, fun _ => h.1, h.2.1, h.2.2.1, ?_⟩
    intro w hw hmc; rw [ht w hw]; exact h.2.2.2 hmc

/-- An assignment that only touches its own option. -/
theorem step_plain (n : Opt) (v : PyVal) (o : Options) (hn : n ≠ matlabCompatible) (c : Prop) [Decidable c]
    (hv : validOpt n v ↔ c) (ht : ∀ w, (n, w) ∉ matlabTable) :
    StepSpec n v o (if c then o.put n v else o) := by
  by_cases hc : c
  · simp only [hc, if_true]
    exact ⟨fun _ => put_same _ _ _, fun h => absurd (hv.mpr hc) h, fun m h1 _ => put_ne _ _ _ _ h1,
      Or.inl (put_ne _ _ _ _ (Ne.symm hn)), fun w hw => absurd hw (ht w)⟩
  · simp only [hc, if_false]
    exact ⟨fun h => absurd (hv.mp h) hc, fun _ => rfl, fun _ _ _ => rfl, Or.inl rfl, fun w hw => absurd hw (ht w)⟩

theorem isBool_iff (v : PyVal) : (v.isBool = true) ↔ ∃ b, v = .bool b := by
  cases v <;> simp [PyVal.isBool]

theorem isStr_iff (v : PyVal) : (v.isStr = true) ↔ ∃ b, v = .str b := by
  cases v <;> simp [PyVal.isStr]

theorem notTable (n : Opt) (h : n ∉ matlabTable.map (·.1)) : ∀ w, (n, w) ∉ matlabTable := by
  intro w hw; exact h (List.mem_map_of_mem (f := (·.1)) hw)

theorem tableBool_true (n : Opt) (h : n ∉ [complexNames, groupForReferences, compressionAlgorithm]) :
    ∀ w, (n, w) ∈ matlabTable → w = .bool true := by
  intro w hw
  simp only [matlabTable, List.mem_cons, Prod.mk.injEq, List.not_mem_nil, or_false] at hw h
  rcases hw with h' | h' | h' | h' | h' | h' | h' | h' | h' | h' | h' <;> first | exact h'.2 | exact absurd h'.1 (by simp_all)

theorem inStrs_ok (v : PyVal) (l : List Str) (b : Bool) (h : v.inStrs l = .ok b) :
    b = true ↔ ∃ s, v = .str s ∧ s ∈ l := by
  unfold PyVal.inStrs at h
  split at h
  · injection h with h
    subst h
    cases v <;> simp
  · cases h

theorem setOpt_spec (n : Opt) (hn : n ≠ matlabCompatible) (v : PyVal) (o o' : Options) (ho : AllValid o)
    (h : setOpt n v o = .ok o') : StepSpec n v o o' := by
  have hb : ∀ n, (∀ v, validOpt n v ↔ ∃ b, v = .bool b) → ∃ b, o n = .bool b := fun n hh => (hh _).mp (ho n)
  have plainB : ∀ n, n ≠ matlabCompatible → (∀ v, validOpt n v ↔ ∃ b, v = .bool b) → n ∉ matlabTable.map (·.1) →
      StepSpec n v o (setPlainBool n v o) := by
    intro n h1 h2 h3
    exact step_plain n v o h1 _ (by rw [h2, isBool_iff]) (notTable n h3)
  have tableB : ∀ n, n ≠ matlabCompatible → (∀ v, validOpt n v ↔ ∃ b, v = .bool b) →
      n ∉ [complexNames, groupForReferences, compressionAlgorithm] → StepSpec n v o (setTableBool n v o) := by
    intro n h1 h2 h3
    exact step_tableBool n v o h1 h2 (hb n h2) (tableBool_true n h3)
  cases n <;> simp only [setOpt, Except.ok.injEq] at h
  case matlabCompatible => exact absurd rfl hn
  case storePythonMetadata => subst h; exact plainB _ (by decide) (fun _ => Iff.rfl) (by decide)
  case structsAsDicts => subst h; exact plainB _ (by decide) (fun _ => Iff.rfl) (by decide)
  case compress => subst h; exact plainB _ (by decide) (fun _ => Iff.rfl) (by decide)
  case shuffleFilter => subst h; exact plainB _ (by decide) (fun _ => Iff.rfl) (by decide)
  case compressedFletcher32Filter => subst h; exact plainB _ (by decide) (fun _ => Iff.rfl) (by decide)
  case uncompressedFletcher32Filter => subst h; exact plainB _ (by decide) (fun _ => Iff.rfl) (by decide)
  case deleteUnusedVariables => subst h; exact tableB _ (by decide) (fun _ => Iff.rfl) (by decide)
  case structuredNumpyNdarrayAsStruct => subst h; exact tableB _ (by decide) (fun _ => Iff.rfl) (by decide)
  case makeAtleast2d => subst h; exact tableB _ (by decide) (fun _ => Iff.rfl) (by decide)
  case convertNumpyBytesToUtf16 => subst h; exact tableB _ (by decide) (fun _ => Iff.rfl) (by decide)
  case convertNumpyStrToUtf16 => subst h; exact tableB _ (by decide) (fun _ => Iff.rfl) (by decide)
  case convertBoolsToUint8 => subst h; exact tableB _ (by decide) (fun _ => Iff.rfl) (by decide)
  case reverseDimensionOrder => subst h; exact tableB _ (by decide) (fun _ => Iff.rfl) (by decide)
  case storeShapeForEmpty => subst h; exact tableB _ (by decide) (fun _ => Iff.rfl) (by decide)
  case dictLikeKeysName =>
    subst h; exact step_plain _ v o hn _ (by rw [isStr_iff]; rfl) (notTable _ (by decide))
  case dictLikeValuesName =>
    subst h; exact step_plain _ v o hn _ (by rw [isStr_iff]; rfl) (notTable _ (by decide))
  case actionForMatlabIncompatible =>
    simp only [setEnum, bind, Except.bind] at h
    split at h
    · cases h
    · rename_i b hb'
      have hio := inStrs_ok _ _ _ hb'
      have : o' = if b = true then o.put actionForMatlabIncompatible v else o := by
        split at h <;> (injection h with h; simp_all)
      rw [this]
      apply step_plain _ v o hn _ _ (notTable _ (by decide))
      rw [hio]; simp [validOpt]
      constructor
      · rintro (h | h | h) <;> simp [h]
      · rintro ⟨s, h1, h2⟩; subst h1; simpa using h2
  case onedAs =>
    simp only [setEnum, bind, Except.bind] at h
    split at h
    · cases h
    · rename_i b hb'
      have hio := inStrs_ok _ _ _ hb'
      have : o' = if b = true then o.put onedAs v else o := by
        split at h <;> (injection h with h; simp_all)
      rw [this]
      apply step_plain _ v o hn _ _ (notTable _ (by decide))
      rw [hio]; simp [validOpt]
      constructor
      · rintro (h | h) <;> simp [h]
      · rintro ⟨s, h1, h2⟩; subst h1; simpa using h2
  case compressSizeThreshold =>
    subst h
    have : setInt compressSizeThreshold none v o =
        if (∃ i, v.asInt = some i ∧ 0 ≤ i) then o.put compressSizeThreshold v else o := by
      unfold setInt
      cases hi : v.asInt with
      | none => simp
      | some i => simp
    rw [this]
    apply step_plain _ v o hn _ _ (notTable _ (by decide))
    cases v <;> simp [validOpt, PyVal.asInt]
    split <;> decide
  case gzipCompressionLevel =>
    subst h
    have : setInt gzipCompressionLevel (some 9) v o =
        if (∃ i, v.asInt = some i ∧ 0 ≤ i ∧ i ≤ 9) then o.put gzipCompressionLevel v else o := by
      unfold setInt
      cases hi : v.asInt with
      | none => simp
      | some i => simp
    rw [this]
    apply step_plain _ v o hn _ _ (notTable _ (by decide))
    cases v <;> simp [validOpt, PyVal.asInt]
    split <;> decide
  case complexNames =>
    subst h
    have hfin : ∀ o1 : Options, (∃ a b, o1 complexNames = .tuple [.str a, .str b]) → (∀ m, m ≠ complexNames → o1 m = o m) →
        let o2 := if !isRealImag (o1 .complexNames) then o1.put .matlabCompatible (.bool false) else o1
        o2 complexNames = o1 complexNames ∧ (∀ m, m ≠ complexNames → m ≠ matlabCompatible → o2 m = o m) ∧
        (o2 matlabCompatible = o matlabCompatible ∨ o2 matlabCompatible = .bool false) ∧
        (o2 matlabCompatible = .bool true → o2 complexNames = .tuple [.str p!"real", .str p!"imag"]) := by
      intro o1 ⟨a, b, hb⟩ hfr
      by_cases hri : a = p!"real" ∧ b = p!"imag"
      · have : isRealImag (o1 complexNames) = true := by rw [hb]; simp [isRealImag, hri]
        simp only [this]
        refine ⟨rfl, fun m h1 _ => hfr m h1, Or.inl (hfr _ (by decide)), fun _ => ?_⟩
        show o1 complexNames = _
        rw [hb, hri.1, hri.2]
      · have : isRealImag (o1 complexNames) = false := by
          rw [hb]; simp only [isRealImag]
          by_cases ha : a = p!"real"
          · have hb2 : b ≠ p!"imag" := fun hh => hri ⟨ha, hh⟩
            simpa [ha] using hb2
          · simp [ha]
        simp only [this, Bool.not_false, if_true]
        refine ⟨put_ne _ _ _ _ (by decide), ?_, Or.inr (put_same _ _ _), ?_⟩
        · intro m h1 h2
          show (o1.put _ _) m = _
          rw [put_ne _ _ _ _ h2, hfr m h1]
        · intro hh; simp [put_same] at hh
    have htab : ∀ w, (complexNames, w) ∈ matlabTable → w = .tuple [.str p!"real", .str p!"imag"] := by
      intro w hw; simpa [matlabTable] using hw
    by_cases hval : ∃ a b, v = .tuple [.str a, .str b]
    · obtain ⟨a, b, rfl⟩ := hval
      have h := hfin (o.put complexNames (.tuple [.str a, .str b])) ⟨a, b, put_same _ _ _⟩ (fun m hm => put_ne _ _ _ _ hm)
      simp only [setComplexNames]
      refine ⟨fun _ => by rw [h.1, put_same], fun hh => absurd ⟨a, b, rfl⟩ hh, h.2.1, h.2.2.1, ?_⟩
      intro w hw hmc; rw [htab w hw]; exact h.2.2.2 hmc
    · have hset : setComplexNames v o = if !isRealImag (o .complexNames) then o.put .matlabCompatible (.bool false) else o := by
        unfold setComplexNames
        dsimp only
        split
        · exact absurd ⟨_, _, rfl⟩ hval
        · rfl
      have h := hfin o (ho complexNames) (fun m _ => rfl)
      rw [hset]
      refine ⟨fun hh => absurd hh hval, fun _ => h.1, h.2.1, h.2.2.1, ?_⟩
      intro w hw hmc; rw [htab w hw]; exact h.2.2.2 hmc
  case groupForReferences =>
    subst h
    have hfin : ∀ o1 : Options, (∃ s, o1 groupForReferences = .str s) → (∀ m, m ≠ groupForReferences → o1 m = o m) →
        let o2 := if !isStrEq (o1 groupForReferences) p!"/#refs#" then o1.put .matlabCompatible (.bool false) else o1
        o2 groupForReferences = o1 groupForReferences ∧ (∀ m, m ≠ groupForReferences → m ≠ matlabCompatible → o2 m = o m) ∧
        (o2 matlabCompatible = o matlabCompatible ∨ o2 matlabCompatible = .bool false) ∧
        (o2 matlabCompatible = .bool true → o2 groupForReferences = .str p!"/#refs#") := by
      intro o1 ⟨s, hb⟩ hfr
      by_cases hs : s = p!"/#refs#"
      · have : isStrEq (o1 groupForReferences) p!"/#refs#" = true := by rw [hb]; simp [isStrEq, hs]
        simp only [this]
        refine ⟨rfl, fun m h1 _ => hfr m h1, Or.inl (hfr _ (by decide)), fun _ => ?_⟩
        show o1 groupForReferences = _
        rw [hb, hs]
      · have : isStrEq (o1 groupForReferences) p!"/#refs#" = false := by rw [hb]; simpa [isStrEq] using hs
        simp only [this, Bool.not_false, if_true]
        refine ⟨put_ne _ _ _ _ (by decide), ?_, Or.inr (put_same _ _ _), ?_⟩
        · intro m h1 h2
          show (o1.put _ _) m = _
          rw [put_ne _ _ _ _ h2, hfr m h1]
        · intro hh; simp [put_same] at hh
    have htab : ∀ w, (groupForReferences, w) ∈ matlabTable → w = .str p!"/#refs#" := by
      intro w hw; simpa [matlabTable] using hw
    have hcond : ∀ s, (1 < (normpath s).length && isAbs (normpath s)) = true ↔ validOpt groupForReferences (.str s) := by
      intro s
      simp only [Bool.and_eq_true, decide_eq_true_eq, validOpt, PyVal.str.injEq]
      constructor
      · rintro ⟨h1, h2⟩
        rw [isAbs_normpath s h1] at h2
        exact ⟨s, rfl, by simpa [isAbs] using h2, h1⟩
      · rintro ⟨s', rfl, h2, h1⟩
        exact ⟨h1, by rw [isAbs_normpath s h1]; simp [isAbs, h2]⟩
    by_cases hval : validOpt groupForReferences v
    · obtain ⟨s, rfl, h1, h2⟩ := hval
      have hv : validOpt groupForReferences (.str s) := ⟨s, rfl, h1, h2⟩
      have h := hfin (o.put groupForReferences (.str s)) ⟨s, put_same _ _ _⟩ (fun m hm => put_ne _ _ _ _ hm)
      simp only [setGroupForReferences, (hcond s).mpr hv, if_true]
      refine ⟨fun _ => by rw [h.1, put_same], fun hh => absurd hv hh, h.2.1, h.2.2.1, ?_⟩
      intro w hw hmc; rw [htab w hw]; exact h.2.2.2 hmc
    · have hset : setGroupForReferences v o =
          if !isStrEq (o groupForReferences) p!"/#refs#" then o.put .matlabCompatible (.bool false) else o := by
        cases v with
        | str s =>
          have : (1 < (normpath s).length && isAbs (normpath s)) = false := by
            rw [← Bool.not_eq_true, hcond]; exact hval
          simp only [setGroupForReferences, this]; rfl
        | _ => rfl
      have hos : ∃ s, o groupForReferences = .str s := by
        obtain ⟨s, h, _⟩ := ho groupForReferences; exact ⟨s, h⟩
      have h := hfin o hos (fun m _ => rfl)
      rw [hset]
      refine ⟨fun hh => absurd hh hval, fun _ => h.1, h.2.1, h.2.2.1, ?_⟩
      intro w hw hmc; rw [htab w hw]; exact h.2.2.2 hmc
  case compressionAlgorithm =>
    simp only [setCompressionAlgorithm, bind, Except.bind] at h
    split at h
    · cases h
    · rename_i b hb'
      have hio := inStrs_ok _ _ _ hb'
      have hvalid : validOpt compressionAlgorithm v ↔ b = true := by
        rw [hio]; simp [validOpt]
        constructor
        · rintro (h | h | h) <;> simp [h]
        · rintro ⟨s, h1, h2⟩; subst h1; simpa using h2
      have hfin : ∀ o1 : Options, (∃ s, o1 compressionAlgorithm = .str s) → (∀ m, m ≠ compressionAlgorithm → o1 m = o m) →
          let o2 := if !isStrEq (o1 compressionAlgorithm) p!"gzip" then o1.put .matlabCompatible (.bool false) else o1
          o2 compressionAlgorithm = o1 compressionAlgorithm ∧
          (∀ m, m ≠ compressionAlgorithm → m ≠ matlabCompatible → o2 m = o m) ∧
          (o2 matlabCompatible = o matlabCompatible ∨ o2 matlabCompatible = .bool false) ∧
          (o2 matlabCompatible = .bool true → o2 compressionAlgorithm = .str p!"gzip") := by
        intro o1 ⟨s, hb⟩ hfr
        by_cases hs : s = p!"gzip"
        · have : isStrEq (o1 compressionAlgorithm) p!"gzip" = true := by rw [hb]; simp [isStrEq, hs]
          simp only [this]
          refine ⟨rfl, fun m h1 _ => hfr m h1, Or.inl (hfr _ (by decide)), fun _ => ?_⟩
          show o1 compressionAlgorithm = _
          rw [hb, hs]
        · have : isStrEq (o1 compressionAlgorithm) p!"gzip" = false := by rw [hb]; simpa [isStrEq] using hs
          simp only [this, Bool.not_false, if_true]
          refine ⟨put_ne _ _ _ _ (by decide), ?_, Or.inr (put_same _ _ _), ?_⟩
          · intro m h1 h2
            show (o1.put _ _) m = _
            rw [put_ne _ _ _ _ h2, hfr m h1]
          · intro hh; simp [put_same] at hh
      have htab : ∀ w, (compressionAlgorithm, w) ∈ matlabTable → w = .str p!"gzip" := by
        intro w hw; simpa [matlabTable] using hw
      have hos : ∀ v, validOpt compressionAlgorithm v → ∃ s, v = .str s := by
        rintro v (h | h | h) <;> exact ⟨_, h⟩
      injection h with h
      cases b with
      | true =>
        have hv := hvalid.mpr rfl
        have hh := hfin (o.put compressionAlgorithm v) (by rw [put_same]; exact hos v hv) (fun m hm => put_ne _ _ _ _ hm)
        simp only [if_true] at h
        rw [h] at hh
        refine ⟨fun _ => by rw [hh.1, put_same], fun h' => absurd hv h', hh.2.1, hh.2.2.1, ?_⟩
        intro w hw hmc; rw [htab w hw]; exact hh.2.2.2 hmc
      | false =>
        have hv : ¬ validOpt compressionAlgorithm v := fun h' => by simpa using hvalid.mp h'
        have hh := hfin o (hos _ (ho compressionAlgorithm)) (fun m _ => rfl)
        simp only [Bool.false_eq_true, if_false] at h
        rw [h] at hh
        refine ⟨fun h' => absurd h' hv, fun _ => hh.1, hh.2.1, hh.2.2.1, ?_⟩
        intro w hw hmc; rw [htab w hw]; exact hh.2.2.2 hmc

theorem setMatlab_true (o : Options) : setMatlabCompatible (.bool true) o matlabCompatible = .bool true ∧
    (∀ n w, (n, w) ∈ matlabTable → setMatlabCompatible (.bool true) o n = w) ∧
    (∀ n, n ≠ matlabCompatible → n ∉ matlabTable.map (·.1) → setMatlabCompatible (.bool true) o n = o n) := by
  refine ⟨by simp [setMatlabCompatible, Options.put], ?_, ?_⟩
  · intro n w hw
    simp only [matlabTable, List.mem_cons, Prod.mk.injEq, List.not_mem_nil, or_false] at hw
    rcases hw with h | h | h | h | h | h | h | h | h | h | h <;>
      (obtain ⟨rfl, rfl⟩ := h; simp [setMatlabCompatible, Options.put])
  · intro n h1 h2
    simp only [matlabTable, List.map_cons, List.map_nil, List.mem_cons, List.not_mem_nil, or_false, not_or] at h2
    simp [setMatlabCompatible, Options.put, h1, h2]

theorem table_valid : ∀ n w, (n, w) ∈ matlabTable → validOpt n w := by
  intro n w hw
  simp only [matlabTable, List.mem_cons, Prod.mk.injEq, List.not_mem_nil, or_false] at hw
  rcases hw with h | h | h | h | h | h | h | h | h | h | h <;>
    (obtain ⟨rfl, rfl⟩ := h; simp [validOpt]; try decide)

theorem setMatlab_other (v : PyVal) (o : Options) (h : ¬ ∃ b, v = .bool b) : setMatlabCompatible v o = o := by
  unfold setMatlabCompatible
  split
  · exact absurd ⟨_, rfl⟩ h
  · rfl

theorem setMatlab_false (o : Options) : setMatlabCompatible (.bool false) o = o.put matlabCompatible (.bool false) := rfl

theorem setMatlab_valid (v : PyVal) (o : Options) (h : AllValid o) : AllValid (setMatlabCompatible v o) := by
  by_cases hb : ∃ b, v = .bool b
  · obtain ⟨b, rfl⟩ := hb
    cases b with
    | false =>
      rw [setMatlab_false]
      intro n
      by_cases hn : n = matlabCompatible
      · subst hn; rw [put_same]; exact ⟨_, rfl⟩
      · rw [put_ne _ _ _ _ hn]; exact h n
    | true =>
      obtain ⟨h1, h2, h3⟩ := setMatlab_true o
      intro n
      by_cases hn : n = matlabCompatible
      · subst hn; rw [h1]; exact ⟨_, rfl⟩
      · by_cases ht : n ∈ matlabTable.map (·.1)
        · obtain ⟨⟨n', w⟩, hw, rfl⟩ := List.mem_map.mp ht
          rw [h2 n' w hw]; exact table_valid n' w hw
        · rw [h3 n hn ht]; exact h n
  · rw [setMatlab_other v o hb]; exact h

theorem setOpt_valid (n : Opt) (v : PyVal) (o o' : Options) (ho : AllValid o) (h : setOpt n v o = .ok o') :
    AllValid o' := by
  by_cases hn : n = matlabCompatible
  · subst hn
    simp only [setOpt, Except.ok.injEq] at h
    subst h
    exact setMatlab_valid v o ho
  · have s := setOpt_spec n hn v o o' ho h
    intro m
    by_cases hm : m = n
    · subst hm
      by_cases hv : validOpt m v
      · rw [s.set_valid hv]; exact hv
      · rw [s.keep_invalid hv]; exact ho m
    · by_cases hmc : m = matlabCompatible
      · subst hmc
        rcases s.mc with h | h
        · rw [h]; exact ho _
        · rw [h]; exact ⟨_, rfl⟩
      · rw [s.frame m hm hmc]; exact ho m

/-- The MATLAB table holds for all options not in `pending`. -/
def TableInv (pending : List Opt) (o : Options) : Prop :=
  ∀ n w, (n, w) ∈ matlabTable → n ∉ pending → o matlabCompatible = .bool true → o n = w

theorem mc_not_table (w : PyVal) : (matlabCompatible, w) ∉ matlabTable := notTable _ (by decide) w

theorem setOpt_table (n : Opt) (v : PyVal) (o o' : Options) (ho : AllValid o) (pending : List Opt)
    (ht : TableInv (n :: pending) o) (h : setOpt n v o = .ok o') : TableInv pending o' := by
  intro m w hmw hmp hmc
  by_cases hn : n = matlabCompatible
  · subst hn
    simp only [setOpt, Except.ok.injEq] at h
    subst h
    have hmn : m ≠ matlabCompatible := by rintro rfl; exact mc_not_table w hmw
    by_cases hb : ∃ b, v = .bool b
    · obtain ⟨b, rfl⟩ := hb
      cases b with
      | false => rw [setMatlab_false, put_same] at hmc; simp at hmc
      | true => exact (setMatlab_true o).2.1 m w hmw
    · rw [setMatlab_other v o hb] at hmc ⊢
      exact ht m w hmw (by simp [hmn, hmp]) hmc
  · have s := setOpt_spec n hn v o o' ho h
    by_cases hm : m = n
    · subst hm; exact s.table w hmw hmc
    · have hmn : m ≠ matlabCompatible := by rintro rfl; exact mc_not_table w hmw
      rw [s.frame m hm hmn]
      apply ht m w hmw (by simp [hm, hmp])
      rcases s.mc with h | h
      · rw [← h]; exact hmc
      · rw [h] at hmc; simp at hmc

theorem foldlM_inv (args : Opt → PyVal) (l : List Opt) : ∀ o o', AllValid o → TableInv l o →
    l.foldlM (fun o n => setOpt n (args n) o) o = .ok o' → AllValid o' ∧ TableInv [] o' := by
  induction l with
  | nil => intro o o' h1 h2 h; simp [List.foldlM] at h; cases h; exact ⟨h1, h2⟩
  | cons n l ih =>
    intro o o' h1 h2 h
    rw [List.foldlM_cons] at h
    simp only [bind, Except.bind] at h
    split at h
    · cases h
    · rename_i o1 ho1
      exact ih o1 o' (setOpt_valid n _ o o1 h1 ho1) (setOpt_table n _ o o1 h1 l h2 ho1) h

theorem newOptions_inv (args : Opt → PyVal) (o : Options) (h : newOptions args = .ok o) :
    AllValid o ∧ TableInv [] o := by
  apply foldlM_inv args ctorOrder _ _ default_valid _ h
  intro n w hnw hn
  exfalso
  apply hn
  have : n ∈ matlabTable.map (·.1) := List.mem_map_of_mem (f := (·.1)) hnw
  revert this
  cases n <;> decide

theorem assigns_inv (l : List (Opt × PyVal)) : ∀ o, AllValid o ∧ TableInv [] o →
    AllValid (l.foldl assign o) ∧ TableInv [] (l.foldl assign o) := by
  induction l with
  | nil => intro o h; exact h
  | cons nv l ih =>
    intro o h
    rw [List.foldl_cons]
    apply ih
    unfold assign
    split
    · rename_i o' ho'
      exact ⟨setOpt_valid _ _ _ _ h.1 ho', setOpt_table _ _ _ _ h.1 [] (fun n w hw _ => h.2 n w hw (by simp)) ho'⟩
    · exact h

theorem fold_keep (args : Opt → PyVal) (l : List Opt) (m : Opt) (hm : m ∉ l) (hmc : m ≠ matlabCompatible) (hl : matlabCompatible ∉ l) : ∀ o o', AllValid o →
    l.foldlM (fun o n => setOpt n (args n) o) o = .ok o' → o' m = o m := by
  induction l with
  | nil => intro o o' _ h; simp [List.foldlM] at h; cases h; rfl
  | cons n l ih =>
    intro o o' h1 h
    rw [List.foldlM_cons] at h
    simp only [bind, Except.bind] at h
    simp only [List.mem_cons, not_or] at hm hl
    split at h
    · cases h
    · rename_i o1 ho1
      rw [ih hm.2 hl.2 o1 o' (setOpt_valid n _ o o1 h1 ho1) h, (setOpt_spec n (fun e => hl.1 e.symm) _ o o1 h1 ho1).frame m hm.1 hmc]

theorem fold_valid (args : Opt → PyVal) (l : List Opt) : ∀ o o', AllValid o → l.foldlM (fun o n => setOpt n (args n) o) o = .ok o' → AllValid o' := by
  induction l with
  | nil => intro o o' h1 h; simp [List.foldlM] at h; cases h; exact h1
  | cons n l ih =>
    intro o o' h1 h
    rw [List.foldlM_cons] at h
    simp only [bind, Except.bind] at h
    split at h
    · cases h
    · rename_i o1 ho1
      exact ih o1 o' (setOpt_valid n _ o o1 h1 ho1) h

theorem fold_value (args : Opt → PyVal) (l : List Opt) (m : Opt) (hm : m ∈ l) (hl : matlabCompatible ∉ l) (hnd : l.Nodup) : ∀ o o', AllValid o →
    l.foldlM (fun o n => setOpt n (args n) o) o = .ok o' → AllValid o' ∧ (validOpt m (args m) → o' m = args m) ∧ (¬ validOpt m (args m) → o' m = o m) := by
  induction l with
  | nil => cases hm
  | cons n l ih =>
    intro o o' h1 h
    rw [List.foldlM_cons] at h
    simp only [bind, Except.bind] at h
    simp only [List.mem_cons, not_or] at hl
    have hnd := List.nodup_cons.mp hnd
    split at h
    · cases h
    · rename_i o1 ho1
      have hv := setOpt_valid n _ o o1 h1 ho1
      have sp := setOpt_spec n (fun e => hl.1 e.symm) _ o o1 h1 ho1
      rcases List.mem_cons.mp hm with rfl | hm
      · have hk := fold_keep args l m hnd.1 (fun e => hl.1 e.symm) hl.2 o1 o' hv h
        have hv' : AllValid o' := fold_valid args l o1 o' hv h
        exact ⟨hv', fun a => by rw [hk, sp.set_valid a], fun a => by rw [hk, sp.keep_invalid a]⟩
      · obtain ⟨a, b, c⟩ := ih hm hl.2 hnd.2 o1 o' hv h
        refine ⟨a, b, fun d => by rw [c d, sp.frame m (fun e => hnd.1 (e ▸ hm)) (fun e => hl.2 (e ▸ hm))]⟩

/-- What the constructor makes of its arguments. -/
theorem newOptions_value (args : Opt → PyVal) (o : Options) (h : newOptions args = .ok o) :
    (∀ b, args matlabCompatible = .bool b → o matlabCompatible = .bool b) ∧
    (args matlabCompatible = .bool true → ∀ n w, (n, w) ∈ matlabTable → o n = w) ∧
    ∀ n, n ≠ matlabCompatible → ¬ (args matlabCompatible = .bool true ∧ n ∈ matlabTable.map (·.1)) →
      (validOpt n (args n) → o n = args n) ∧ (¬ validOpt n (args n) → o n = Options.default n) := by
  unfold newOptions at h
  have hc : ctorOrder = ctorOrder.dropLast ++ [matlabCompatible] := by decide
  rw [hc, List.foldlM_append] at h
  simp only [bind, Except.bind] at h
  split at h
  · cases h
  · rename_i o1 ho1
    simp only [List.foldlM_cons, List.foldlM_nil, bind, Except.bind, setOpt] at h
    cases h
    refine ⟨?_, ?_, ?_⟩
    · intro b hb
      rw [hb]
      cases b with
      | true => exact (setMatlab_true o1).1
      | false => rw [setMatlab_false, put_same]
    · intro hb n w hw
      rw [hb]
      exact (setMatlab_true o1).2.1 n w hw
    · intro n hn ht
      have hv := fold_value args ctorOrder.dropLast n (by cases n <;> first | exact absurd rfl hn | decide) (by decide) (by decide) Options.default o1 default_valid ho1
      have hs : setMatlabCompatible (args matlabCompatible) o1 n = o1 n := by
        by_cases hb : ∃ b, args matlabCompatible = .bool b
        · obtain ⟨b, hb⟩ := hb
          rw [hb] at ht ⊢
          cases b with
          | true => exact (setMatlab_true o1).2.2 n hn (fun h => ht ⟨rfl, h⟩)
          | false => rw [setMatlab_false, put_ne _ _ _ _ hn]
        · rw [setMatlab_other _ _ hb]
      rw [hs]
      exact hv.2

end HS
