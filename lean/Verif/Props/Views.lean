import Verif.Props.Mapping
import Verif.Spec.Views
/-
C79: the keys of a file as a set.
-/
namespace HS
open Spec

theorem keepIn_spec {F : FileS} {K : Str → Prop} {s : List Str} (h : ∀ k ∈ s, Tells (fileContains (.str k) F) (K k)) : GivesSet (keepIn F s) (fun k => K k ∧ k ∈ s) := by
  induction s with
  | nil => exact ⟨[], rfl, fun k => by simp⟩
  | cons c s ih =>
    obtain ⟨l, h1, h2⟩ := ih (fun k hk => h k (List.mem_cons_of_mem _ hk))
    dsimp only at h2
    rcases h c List.mem_cons_self with ⟨h3, h4⟩ | ⟨h3, h4⟩
    · refine ⟨c :: l, by unfold keepIn; rw [h3, h1]; rfl, fun k => ?_⟩
      dsimp only
      rw [List.mem_cons, List.mem_cons, h2]
      constructor
      · rintro (rfl | ⟨h5, h6⟩)
        · exact ⟨h4, Or.inl rfl⟩
        · exact ⟨h5, Or.inr h6⟩
      · rintro ⟨h5, rfl | h6⟩
        · exact Or.inl rfl
        · exact Or.inr ⟨h5, h6⟩
    · refine ⟨l, by unfold keepIn; rw [h3, h1]; rfl, fun k => ?_⟩
      dsimp only
      rw [List.mem_cons, h2]
      constructor
      · rintro ⟨h5, h6⟩; exact ⟨h5, Or.inr h6⟩
      · rintro ⟨h5, rfl | h6⟩
        · exact absurd h5 h4
        · exact ⟨h5, h6⟩

theorem keepOut_spec {F : FileS} {K : Str → Prop} {s : List Str} (h : ∀ k ∈ s, Tells (fileContains (.str k) F) (K k)) : GivesSet (keepOut F s) (fun k => k ∈ s ∧ ¬ K k) := by
  induction s with
  | nil => exact ⟨[], rfl, fun k => by simp⟩
  | cons c s ih =>
    obtain ⟨l, h1, h2⟩ := ih (fun k hk => h k (List.mem_cons_of_mem _ hk))
    dsimp only at h2
    rcases h c List.mem_cons_self with ⟨h3, h4⟩ | ⟨h3, h4⟩
    · refine ⟨l, by unfold keepOut; rw [h3, h1]; rfl, fun k => ?_⟩
      dsimp only
      rw [List.mem_cons, h2]
      constructor
      · rintro ⟨h5, h6⟩; exact ⟨Or.inr h5, h6⟩
      · rintro ⟨rfl | h5, h6⟩
        · exact absurd h4 h6
        · exact ⟨h5, h6⟩
    · refine ⟨c :: l, by unfold keepOut; rw [h3, h1]; rfl, fun k => ?_⟩
      dsimp only
      rw [List.mem_cons, List.mem_cons, h2]
      constructor
      · rintro (rfl | ⟨h5, h6⟩)
        · exact ⟨Or.inl rfl, h4⟩
        · exact ⟨Or.inr h5, h6⟩
      · rintro ⟨rfl | h5, h6⟩
        · exact Or.inl rfl
        · exact Or.inr ⟨h5, h6⟩

theorem allIn_spec {F : FileS} {K : Str → Prop} {s : List Str} (h : ∀ k ∈ s, Tells (fileContains (.str k) F) (K k)) : Tells (allIn F s) (∀ k, k ∈ s → K k) := by
  induction s with
  | nil => exact Or.inl ⟨rfl, nofun⟩
  | cons c s ih =>
    rcases h c List.mem_cons_self with ⟨h3, h4⟩ | ⟨h3, h4⟩
    · have e : allIn F (c :: s) = allIn F s := by rw [allIn, h3]; rfl
      rw [e]
      rcases ih (fun k hk => h k (List.mem_cons_of_mem _ hk)) with ⟨h1, h2⟩ | ⟨h1, h2⟩
      · refine Or.inl ⟨h1, fun k hk => ?_⟩
        rcases List.mem_cons.mp hk with rfl | hk
        · exact h4
        · exact h2 k hk
      · exact Or.inr ⟨h1, fun h5 => h2 fun k hk => h5 k (List.mem_cons_of_mem _ hk)⟩
    · exact Or.inr ⟨by rw [allIn, h3]; rfl, fun h5 => h4 (h5 c List.mem_cons_self)⟩

theorem keysDisjoint_spec {F : FileS} {K : Str → Prop} {s : List Str} (h : ∀ k ∈ s, Tells (fileContains (.str k) F) (K k)) :
    Tells (keysDisjoint F s) (∀ k, K k → k ∉ s) := by
  induction s with
  | nil => exact Or.inl ⟨rfl, fun _ _ => List.not_mem_nil⟩
  | cons c s ih =>
    rcases h c List.mem_cons_self with ⟨h3, h4⟩ | ⟨h3, h4⟩
    · exact Or.inr ⟨by rw [keysDisjoint, h3]; rfl, fun h5 => h5 c h4 List.mem_cons_self⟩
    · have e : keysDisjoint F (c :: s) = keysDisjoint F s := by rw [keysDisjoint, h3]; rfl
      rw [e]
      rcases ih (fun k hk => h k (List.mem_cons_of_mem _ hk)) with ⟨h1, h2⟩ | ⟨h1, h2⟩
      · refine Or.inl ⟨h1, fun k hk hm => ?_⟩
        rcases List.mem_cons.mp hm with rfl | hm
        · exact h4 hk
        · exact h2 k hk hm
      · exact Or.inr ⟨h1, fun h5 => h2 fun k hk hm => h5 k hk (List.mem_cons_of_mem _ hm)⟩

/-- The inherited methods in terms of `__len__`, `__iter__` and `__contains__` that are consistent. -/
theorem keysLike_of {x : Ctx} {F : FileS} {s l : List Str} (hs : s.Nodup) (hl : l.Nodup) (hi : fileIter x F = .ok l) (hn : fileLen x F = .ok l.length)
    (h : ∀ k ∈ s, Tells (fileContains (.str k) F) (k ∈ l)) : KeysLike x F s (fun k => k ∈ l) := by
  have hle : Tells (keysLe x F s) (∀ k, k ∈ l → k ∈ s) := by
    unfold keysLe
    rw [hn]
    simp only [bind, Except.bind]
    by_cases hlen : s.length < l.length
    · rw [if_pos hlen]
      refine Or.inr ⟨rfl, fun hsub => ?_⟩
      have : l.length ≤ s.length := List.Nodup.length_le_of_subset hl hsub
      omega
    · rw [if_neg hlen, hi]
      by_cases hsub : ∀ k, k ∈ l → k ∈ s
      · exact Or.inl ⟨by
          have : (l.all fun k => decide (k ∈ s)) = true := by
            rw [List.all_eq_true]; exact fun k hk => decide_eq_true (hsub k hk)
          dsimp only
          rw [this], hsub⟩
      · refine Or.inr ⟨?_, hsub⟩
        cases ha : l.all fun k => decide (k ∈ s) with
        | false => dsimp only; rw [ha]
        | true => exact absurd (fun k hk => of_decide_eq_true (List.all_eq_true.mp ha k hk)) hsub
  refine ⟨hle, ?_, ?_, keysDisjoint_spec h, keepIn_spec h, ⟨l ++ s, by unfold keysOr; rw [hi]; rfl, fun k => List.mem_append⟩,
    ⟨l.filter fun k => decide (k ∉ s), by unfold keysSub; rw [hi]; rfl, fun k => by rw [List.mem_filter, decide_eq_true_iff]⟩, keepOut_spec h, ?_⟩
  · unfold keysGe
    rw [hn]
    simp only [bind, Except.bind]
    by_cases hlen : l.length < s.length
    · rw [if_pos hlen]
      refine Or.inr ⟨rfl, fun hsub => ?_⟩
      have : s.length ≤ l.length := List.Nodup.length_le_of_subset hs hsub
      omega
    · rw [if_neg hlen]
      exact allIn_spec h
  · unfold keysEq
    rw [hn]
    simp only [bind, Except.bind]
    by_cases hlen : l.length = s.length
    · rw [if_pos hlen]
      rcases hle with ⟨h1, h2⟩ | ⟨h1, h2⟩
      · refine Or.inl ⟨h1, fun k => ⟨h2 k, fun hk => ?_⟩⟩
        apply Decidable.byContradiction
        intro hkl
        have : (k :: l).length ≤ s.length := List.Nodup.length_le_of_subset (List.nodup_cons.mpr ⟨hkl, hl⟩) (by
          intro m hm
          rcases List.mem_cons.mp hm with rfl | hm
          · exact hk
          · exact h2 m hm)
        rw [List.length_cons] at this
        omega
      · exact Or.inr ⟨h1, fun h3 => h2 fun k hk => (h3 k).mp hk⟩
    · rw [if_neg hlen]
      refine Or.inr ⟨rfl, fun h3 => ?_⟩
      have a : s.length ≤ l.length := List.Nodup.length_le_of_subset hs fun k hk => (h3 k).mpr hk
      have b : l.length ≤ s.length := List.Nodup.length_le_of_subset hl fun k hk => (h3 k).mp hk
      omega
  · obtain ⟨b, h1, h2⟩ := keepOut_spec h
    refine ⟨(l.filter fun k => decide (k ∉ s)) ++ b, ?_, fun k => ?_⟩
    · unfold keysXor keysSub keysRsub
      rw [hi]
      simp only [bind, Except.bind]
      rw [h1]
    · rw [List.mem_append, h2, List.mem_filter, decide_eq_true_iff]

/-- C79 (partial). However a file was used, `f.keys()` does with a set of names what the set of the names in the root Group, but the references Group's, does.
Missing: sets with anything but names that can be keys (findings F63, `C79_counterexample`), and files with a name that sorts before the references Group's (F7). -/
theorem C79_keys_partial {x : Ctx} {r : Str} (hr : x.o.refsPath = slash :: r) (hrn : IsName r) (hro : nameOk r = true) (h : Heap) (hd : DistinctNames h) (w : Bool)
    (n : Nat) (ops : List Op) (ho : (fileOps x n ops (FileS.new h w)).2.isOpen = true)
    (hf : ∀ k, Exists (fileOps x n ops (FileS.new h w)).2.st.heap [k] → k ≠ r → strLt r k = true)
    {s : List Str} (hs : s.Nodup) (hk : ∀ k ∈ s, IsName k ∧ k ≠ [dot, dot] ∧ nameOk k = true ∧ k ≠ r) :
    KeysLike x (fileOps x n ops (FileS.new h w)).2 s (fun k => Exists (fileOps x n ops (FileS.new h w)).2.st.heap [k] ∧ k ≠ r) := by
  obtain ⟨l, ⟨hl1, hl2⟩, hi⟩ := C38_iter_partial hr hrn h hd w n ops ho hf
  obtain ⟨l', ⟨hl3, hl4⟩, hn⟩ := C38_len hr hrn hro h hd w n ops ho
  generalize (fileOps x n ops (FileS.new h w)).2 = F at *
  have hlen : l.length = l'.length := Nat.le_antisymm
    (List.Nodup.length_le_of_subset hl1 fun k hk => (hl4 k).mpr ((hl2 k).mp hk))
    (List.Nodup.length_le_of_subset hl3 fun k hk => (hl2 k).mpr ((hl4 k).mp hk))
  have hK : (fun k => Exists F.st.heap [k] ∧ k ≠ r) = (fun k => k ∈ l) := by
    funext k
    refine propext ⟨fun h => (hl2 k).mpr ⟨h.1, fun e => h.2 (Option.some.inj e).symm⟩, fun h => ?_⟩
    obtain ⟨h1, h2⟩ := (hl2 k).mp h
    exact ⟨h1, fun e => h2 (by rw [e])⟩
  rw [hK]
  refine keysLike_of hs hl1 hi (by rw [hn, hlen]) fun k hks => ?_
  obtain ⟨h1, h2, h3, h4⟩ := hk k hks
  obtain ⟨b, h5, h6⟩ := fileContains_eq (F := F) (addr_name h1 h2) ho (by simp [h3])
  have hiff : k ∈ l ↔ Exists F.st.heap [k] := by
    rw [hl2]
    exact ⟨fun h => h.1, fun h => ⟨h, fun e => h4 (Option.some.inj e).symm⟩⟩
  cases b with
  | true => exact Or.inl ⟨h5, hiff.mpr (h6.mp rfl)⟩
  | false => exact Or.inr ⟨h5, fun h => by have := h6.mpr (hiff.mp h); cases this⟩

-- A file with a list and a number.
example : exMap = (fileOps exX 10 exOps (FileS.new [⟨[], .group []⟩] true)).2 ∧ (∀ k, Exists exMap.st.heap [k] → k ≠ p!"#refs#" → strLt p!"#refs#" k = true) ∧
    (∀ k ∈ [p!"a", p!"c"], IsName k ∧ k ≠ [dot, dot] ∧ nameOk k = true ∧ k ≠ p!"#refs#") := by
  refine ⟨(by unfold exMap exF; rfl), fun k hk hr => ?_, by unfold IsName; decide⟩
  rcases ex_map_names k hk hr with rfl | rfl <;> decide
example : keysAnd exMap [p!"a", p!"c"] = .ok [p!"a"] ∧ keysEq exX exMap [p!"b", p!"a"] = .ok true ∧ keysLe exX exMap [p!"a", p!"c"] = .ok false ∧
    keysXor exX exMap [p!"a", p!"c"] = .ok [p!"b", p!"c"] := by decide +kernel

/-- F63: `f.keys()` has the elements `a` and `b`, but the intersection with the set of the paths `a`, `/a` and `#refs#` has all three of them, `{"/a"}` is a subset of
`f.keys()` and not disjoint from it, and subtracting `f.keys()` leaves nothing of it. -/
theorem C79_counterexample : fileIter exX exMap = .ok [p!"a", p!"b"] ∧ keysAnd exMap [p!"a", p!"/a", p!"#refs#"] = .ok [p!"a", p!"/a", p!"#refs#"] ∧
    keysGe exX exMap [p!"/a"] = .ok true ∧ keysDisjoint exMap [p!"/a"] = .ok false ∧ keysRsub exMap [p!"/a"] = .ok [] ∧
    keysSub exX exMap [p!"/a"] = .ok [p!"a", p!"b"] := by decide +kernel

end HS
