import Verif.Lemmas.DictEntries
import Verif.Props.Local
/-
C47: what is in a Group after a dict was written to it.
-/
namespace HS
open Spec

/-- C47. A dict with string keys (or a record stored like one) is written anywhere but to the root Group, whatever was there before: afterwards the Group has
exactly the fields whose values are not discarded, and of what was in a Group there before, everything if `delete_unused_variables` is not set, and otherwise
what has the name of a field. -/
theorem C47_entries {x : Ctx} (hN : NamesOk x.o) {n : Nat} {F F' : FileS} {p : PathArg} {ns : List Str} {v : Val} {texts : List Str} {vals : List Val}
    (hf : HasFields v texts vals) (hw : Wrote x n F p ns v F') (k : Str) :
    Exists F'.st.heap (ns ++ [k]) ↔
      StoresField x.o texts vals k ∨ (Exists F.st.heap (ns ++ [k]) ∧ (x.o.deleteUnused = true → FieldName texts k)) := by
  obtain ⟨gs, t, s1, g, ob, r⟩ := wrote_run hN hw
  obtain ⟨m, keys, struct, ts, h1, h2, h3, h4⟩ := fields_run hf r.run
  rw [wroteDict_entries hN r h1 k, h4 k, h2]
  unfold StoresField
  constructor
  · rintro (⟨w, h5, h6⟩ | ⟨h5, h6⟩)
    · obtain ⟨t, h7, h8⟩ := (h3 k w).mp h5
      exact Or.inl ⟨t, w, h7, h8, h6⟩
    · exact Or.inr ⟨h5, fun h => h6 (Or.inr h)⟩
  · rintro (⟨t, w, h5, h6, h7⟩ | ⟨h5, h6⟩)
    · exact Or.inl ⟨w, (h3 k w).mpr ⟨t, h5, h6⟩, h7⟩
    · exact Or.inr ⟨h5, fun h => h6 (by rcases h with h | h; · cases h
                                        · exact h)⟩

/-- C47, with `delete_unused_variables` and no discarded values: exactly the fields. -/
theorem C47_exactly {x : Ctx} (hN : NamesOk x.o) (hd : x.o.deleteUnused = true) {n : Nat} {F F' : FileS} {p : PathArg} {ns : List Str} {v : Val} {texts : List Str}
    {vals : List Val} (hf : HasFields v texts vals) (hv : ∀ w ∈ vals, ¬ Discarded x.o w) (hl : vals.length = texts.length) (hw : Wrote x n F p ns v F') (k : Str) :
    Exists F'.st.heap (ns ++ [k]) ↔ FieldName texts k := by
  rw [C47_entries hN hf hw k]
  constructor
  · rintro (⟨t, w, h5, h6, h7⟩ | ⟨_, h⟩)
    · exact ⟨t, (List.of_mem_zip h5).1, h6⟩
    · exact h hd
  · rintro ⟨t, h1, h2⟩
    obtain ⟨i, h3, h4⟩ := List.mem_iff_getElem.mp h1
    have hi : i < vals.length := by omega
    refine Or.inl ⟨t, vals[i], ?_, h2, hv _ (List.getElem_mem hi)⟩
    rw [← h4]
    exact List.mem_iff_getElem.mpr ⟨i, by simp; omega, by simp⟩

/-- C47, for a dict with a key that is not a string: exactly the keys and the values, whatever `delete_unused_variables` is. -/
theorem C47_keys_values {x : Ctx} (hN : NamesOk x.o) {n : Nat} {F F' : FileS} {p : PathArg} {ns : List Str} {dk : DictKind} {keys vals : List Val}
    (hf : ∃ k ∈ keys, NotTextKey k) (hw : Wrote x n F p ns (.dict dk keys vals) F') (k : Str) :
    Exists F'.st.heap (ns ++ [k]) ↔ k = x.o.keysName ∨ k = x.o.valuesName := by
  obtain ⟨gs, t, s1, g, ob, r⟩ := wrote_run hN hw
  obtain ⟨m, struct, ts, h1, h2, h3⟩ := other_run hf r.run
  rw [wroteDict_entries hN r h1 k, h2, h3]
  have hnd : ∀ l, ¬ Discarded x.o (.seq .tuple l) := by
    rintro l ⟨_, _, ⟨c, a, h, _⟩ | ⟨_, _, _, _, _, _, h⟩⟩ <;> cases h
  simp only [List.map_cons, List.map_nil, List.mem_cons, List.not_mem_nil, or_false, Prod.mk.injEq]
  constructor
  · rintro (⟨w, ⟨h5, _⟩ | ⟨h5, _⟩, _⟩ | ⟨_, h6⟩)
    · exact Or.inl h5
    · exact Or.inr h5
    · exact h6 (Or.inl trivial)
  · rintro (h | h)
    · exact Or.inl ⟨_, Or.inl ⟨h, rfl⟩, hnd _⟩
    · exact Or.inl ⟨_, Or.inr ⟨h, rfl⟩, hnd _⟩

/-- C47. What was in the Group and is neither written nor deleted reads exactly as before (a value or an exception): what has no field's name, if
`delete_unused_variables` is not set, and what has the name of a field whose value is discarded.  It must not refer to other places of the file than the
references Group (otherwise see `C35_counterexample`). -/
theorem C47_kept {x : Ctx} (hN : NamesOk x.o) {n : Nat} {F F' : FileS} {p : PathArg} {ns : List Str} {v : Val} {texts : List Str} {vals : List Val}
    (hf : HasFields v texts vals) (hw : Wrote x n F p ns v F') {k : Str} (hex : Exists F.st.heap (ns ++ [k])) (hs : SelfContained x.o F.st.heap (ns ++ [k]))
    (hns : ¬ StoresField x.o texts vals k) (hdel : x.o.deleteUnused = true → FieldName texts k) : ReadsSame x F F' (ns ++ [k]) := by
  obtain ⟨gs, t, s1, g, ob, r⟩ := wrote_run hN hw
  obtain ⟨m, keys, struct, ts, h1, h2, h3, h4⟩ := fields_run hf r.run
  intro q j hq
  have hkd : k ≠ [dot] := addr_plain hq k (by simp)
  have hoff : OffRefs x.o (ns ++ [k]) := ⟨addr_plain hq, by simp, r.off.refs, by rw [head_append_ne r.off.ne]; exact r.off.head⟩
  refine away_same hw hoff (wroteDict_away hN r h1 hkd hex ?_ ?_) hs hex q j hq
  · rintro (h | h)
    · rw [h2] at h; cases h
    · exact (h4 k).mpr (hdel h)
  · intro w hkw
    obtain ⟨t, h5, h6⟩ := (h3 k w).mp hkw
    exact Classical.byContradiction fun hn => hns ⟨t, w, h5, h6, hn⟩

/-- The example options with `delete_unused_variables` and the action as given. -/
def exDel (d : Bool) (a : MatAction) : Ctx := ⟨{ exOpts with deleteUnused := d, action := a }, exX.rng, 5⟩

theorem exDel_names (d : Bool) (a : MatAction) : NamesOk (exDel d a).o :=
  ⟨(by decide : exOpts.keysName ≠ [dot]), (by decide : exOpts.valuesName ≠ [dot])⟩

/-- An example: a dict at '/x/y', and then another one. -/
def exDict1 : Val := .dict .dict [.str p!"a", .str p!"b"] [.int 1, .seq .list [.int 2]]
/-- See `exDict1`. -/
def exDict2 : Val := .dict .orderedDict [.bytes p!"b", .str p!"c/d"] [.str p!"new", .none]
/-- See `exDict1`. -/
def exDict3 : Val := .dict .dict [.str p!"a"] [.np .scalar ⟨.f16, [], [.num 0]⟩]
/-- See `exDict1`. -/
def exDict4 : Val := .dict .dict [.int 3] [.int 4]
/-- See `exDict1`. -/
def exDictF (x : Ctx) : FileS := (fileWrite x 10 (.str p!"/x/y") exDict1 exF).2

theorem exDict_wrote (d : Bool) (a : MatAction) (v : Val) (h : (fileWrite (exDel d a) 10 (.str p!"/x/y") v (exDictF (exDel d a))).1 = .ok ())
    (hro : (exDictF (exDel d a)).ro = false) :
    Wrote (exDel d a) 10 (exDictF (exDel d a)) (.str p!"/x/y") [p!"x", p!"y"] v (fileWrite (exDel d a) 10 (.str p!"/x/y") v (exDictF (exDel d a))).2 where
  refs := ⟨rfl, (by decide : hdf5Names exOpts.refsPath ≠ [])⟩
  reach := .wrote 10 [(.str p!"/x/y", _)] (.opened _ _ ⟨fun _ _ _ h => (linkAt_single h).elim, rfl, fun _ _ h => linkAt_single h, fun _ _ _ _ _ h => (linkAt_single h).elim⟩) (by
    intro pv hpv
    rw [List.mem_singleton] at hpv
    subst hpv
    intro h
    exact absurd (addr_unique h ⟨p!"/x", p!"y", by decide, rfl⟩) (by decide))
  rw := hro
  addr := ⟨p!"/x", p!"y", by decide, by decide⟩
  notRoot := by simp
  ok := pair_of_fst h

theorem exDict2_fields : HasFields exDict2 [p!"b", p!"c/d"] [.str p!"new", .none] := .dict _ _ _ _ (.cons (.bytes _ _ (by decide)) (.cons (.str _) .nil)) rfl

-- A Group with the fields 'a' and 'b' is overwritten by a dict with the fields 'b' and 'c/d': 'a' is deleted, or it is not, and the new field is 'c\x2fd'.
example : (∃ F', Wrote (exDel true .error) 10 (exDictF (exDel true .error)) (.str p!"/x/y") [p!"x", p!"y"] exDict2 F' ∧ fileContains (.str p!"/x/y/a") F' = .ok false ∧
      fileContains (.str p!"/x/y/b") F' = .ok true ∧ fileContains (.seq [.str p!"x", .str p!"y", .str p!"c/d"]) F' = .ok true) ∧
    (∃ F', Wrote (exDel false .error) 10 (exDictF (exDel false .error)) (.str p!"/x/y") [p!"x", p!"y"] exDict2 F' ∧ fileContains (.str p!"/x/y/a") F' = .ok true) ∧
    (∃ F', Wrote (exDel false .error) 10 (exDictF (exDel false .error)) (.str p!"/x/y") [p!"x", p!"y"] exDict4 F' ∧ fileContains (.str p!"/x/y/a") F' = .ok false) ∧
    (∀ w ∈ [Val.str p!"new", .none], ¬ Discarded exX.o w) ∧ (∃ k ∈ [Val.int 3], NotTextKey k) := by
  refine ⟨⟨_, exDict_wrote true .error exDict2 (by decide +kernel) (by decide +kernel), by decide +kernel, by decide +kernel, by decide +kernel⟩,
    ⟨_, exDict_wrote false .error exDict2 (by decide +kernel) (by decide +kernel), by decide +kernel⟩,
    ⟨_, exDict_wrote false .error exDict4 (by decide +kernel) (by decide +kernel), by decide +kernel⟩, ?_, ⟨_, List.mem_singleton.mpr rfl, trivial⟩⟩
  intro w hw
  rintro ⟨_, _, ⟨c, a, rfl, _⟩ | ⟨_, _, _, _, _, _, rfl⟩⟩ <;> simp at hw

-- The hypotheses of `C47_kept`: 'a' is in the Group before, and not written.
example : (∃ F', Wrote (exDel false .error) 10 (exDictF (exDel false .error)) (.str p!"/x/y") [p!"x", p!"y"] exDict2 F') ∧
    Exists (exDictF (exDel false .error)).st.heap ([p!"x", p!"y"] ++ [p!"a"]) ∧
    ¬ StoresField (exDel false .error).o [p!"b", p!"c/d"] [.str p!"new", .none] p!"a" := by
  refine ⟨⟨_, exDict_wrote false .error exDict2 (by decide +kernel) (by decide +kernel)⟩, ⟨_, lpath_resolve (by
    intro c hc
    simp only [List.mem_cons, List.cons_append, List.nil_append, List.not_mem_nil, or_false] at hc
    rcases hc with rfl | rfl | rfl <;> decide) (by decide +kernel : resolve (exDictF (exDel false .error)).st.heap 0 [p!"x", p!"y", p!"a"] = some 3)⟩, ?_⟩
  rintro ⟨t, v, h1, h2, _⟩
  simp only [List.zip_cons_cons, List.zip_nil_right, List.mem_cons, Prod.mk.injEq, List.not_mem_nil, or_false] at h1
  rcases h1 with ⟨rfl, _⟩ | ⟨rfl, _⟩
  · revert h2; decide
  · revert h2; decide

/-- F39: a field whose value is discarded keeps the value it had before. -/
theorem C47_discarded : ∃ F', Wrote (exDel true .discard) 10 (exDictF (exDel true .discard)) (.str p!"/x/y") [p!"x", p!"y"] exDict3 F' ∧
    fileRead (exDel true .discard) 10 (.str p!"/x/y") F' = .ok (.dict .dict [.str p!"a"] [.int 1]) :=
  ⟨(fileWrite (exDel true .discard) 10 (.str p!"/x/y") exDict3 (exDictF (exDel true .discard))).2,
    exDict_wrote true .discard exDict3 (by decide +kernel) (by decide +kernel), eq_of_isVal (by decide +kernel)⟩

end HS
