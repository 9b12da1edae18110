import Verif.Model.DTypeTree
/-
C22: zero-shape detection.
-/
namespace HS

/-- `sub` occurs in `dt`: it is `dt` itself, or occurs in one of its fields or in its base. -/
inductive Occurs : NpDT → NpDT → Prop
  | self (dt : NpDT) : Occurs dt dt
  | field (d : NpDT) (n : Str) (t : NpDT) (fs : List (Str × NpDT)) : (n, t) ∈ fs → Occurs d t → Occurs d (.struct fs)
  | base (d : NpDT) (s : List Nat) (b : NpDT) : Occurs d b → Occurs d (.sub s b)

theorem occurs_children (d c : NpDT) : Occurs d c ↔ d = c ∨ ∃ x ∈ c.baseList ++ c.fieldTypes, Occurs d x := by
  constructor
  · intro h
    cases h with
    | self => exact Or.inl rfl
    | field n t fs hm ho =>
      refine Or.inr ⟨t, ?_, ho⟩
      simp only [NpDT.baseList, NpDT.fieldTypes, List.nil_append, List.mem_map]
      exact ⟨(n, t), hm, rfl⟩
    | base s b ho => exact Or.inr ⟨b, by simp [NpDT.baseList], ho⟩
  · rintro (rfl | ⟨x, hx, ho⟩)
    · exact .self _
    · cases c with
      | plain _ => simp [NpDT.baseList, NpDT.fieldTypes] at hx
      | struct fs =>
        simp only [NpDT.baseList, NpDT.fieldTypes, List.nil_append, List.mem_map] at hx
        obtain ⟨⟨n, t⟩, hm, rfl⟩ := hx
        exact .field d n t fs hm ho
      | sub s b =>
        simp [NpDT.baseList, NpDT.fieldTypes] at hx
        subst hx
        exact .base d s x ho

theorem zeroShapeLoop_spec (l : List NpDT) :
    zeroShapeLoop l = true ↔ ∃ c ∈ l, ∃ d, Occurs d c ∧ 0 ∈ d.shape := by
  induction hn : nodesL l using Nat.strongRecOn generalizing l with
  | ind n ih =>
    cases l with
    | nil => simp [zeroShapeLoop]
    | cons c rest =>
      rw [zeroShapeLoop]
      split
      · rename_i h
        simp only [true_iff]
        exact ⟨c, by simp, c, .self c, by simpa using h⟩
      · rename_i h
        have hlt : nodesL (c.baseList.reverse ++ (c.fieldTypes.reverse ++ rest)) < n := by
          have := nodes_children c
          subst hn
          simp only [nodesL_append, nodesL_reverse, nodesL]
          omega
        rw [ih _ hlt _ rfl]
        constructor
        · rintro ⟨x, hx, d, hd, h0⟩
          simp only [List.mem_append, List.mem_reverse] at hx
          rcases hx with hx | hx | hx
          · exact ⟨c, by simp, d, (occurs_children d c).mpr (Or.inr ⟨x, by simp [hx], hd⟩), h0⟩
          · exact ⟨c, by simp, d, (occurs_children d c).mpr (Or.inr ⟨x, by simp [hx], hd⟩), h0⟩
          · exact ⟨x, by simp [hx], d, hd, h0⟩
        · rintro ⟨x, hx, d, hd, h0⟩
          rcases List.mem_cons.mp hx with rfl | hx
          · rcases (occurs_children d x).mp hd with rfl | ⟨y, hy, ho⟩
            · exact absurd (by simpa using h0) h
            · refine ⟨y, ?_, d, ho, h0⟩
              simp only [List.mem_append, List.mem_reverse] at hy ⊢
              rcases hy with hy | hy
              · exact Or.inl hy
              · exact Or.inr (Or.inl hy)
          · exact ⟨x, by simp [hx], d, hd, h0⟩

/-- C22. `does_dtype_have_a_zero_shape` (a total function of the model, so it terminates on every dtype) returns True exactly if the dtype, or a
dtype nested in it at any depth through fields and bases, has a zero in its shape. -/
theorem C22_zero_shape (dt : NpDT) :
    doesDtypeHaveAZeroShape dt = true ↔ ∃ d, Occurs d dt ∧ 0 ∈ d.shape := by
  simp [doesDtypeHaveAZeroShape, zeroShapeLoop_spec]

/-- C22, termination bound: every round of the loop pops one component and pushes strictly fewer nodes, so at most `nodes` rounds
are made. -/
theorem C22_terminates (c : NpDT) (rest : List NpDT) :
    nodesL (c.baseList.reverse ++ (c.fieldTypes.reverse ++ rest)) < nodesL (c :: rest) := by
  have := nodes_children c
  simp only [nodesL_append, nodesL_reverse, nodesL]
  omega

-- `[('a', 'int32'), ('b', [('c', 'f2')], (2, 0, 3))]` has one, with (2, 1, 3) it has not.
example : doesDtypeHaveAZeroShape
    (.struct [(p!"a", .plain p!"int32"), (p!"b", .sub [2, 0, 3] (.struct [(p!"c", .plain p!"f2")]))]) = true := by
  simp [doesDtypeHaveAZeroShape, zeroShapeLoop, NpDT.shape, NpDT.fieldTypes, NpDT.baseList]
example : doesDtypeHaveAZeroShape
    (.struct [(p!"a", .plain p!"int32"), (p!"b", .sub [2, 1, 3] (.struct [(p!"c", .plain p!"f2")]))]) = false := by
  simp [doesDtypeHaveAZeroShape, zeroShapeLoop, NpDT.shape, NpDT.fieldTypes, NpDT.baseList]

end HS
