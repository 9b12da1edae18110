import Verif.Lemmas.RootFile
import Verif.Props.RefsValid
/-
C60: writing to the root Group.
-/
namespace HS
open Spec

/-- C60 (partial).  A dict (or a record stored like one) is written to the root Group, the default path of `write`: reading the root Group gives it back.  Missing: a
dict with a key that has the references Group's name (finding F50, `C60_counterexample_key`), the references Group being deleted while in use (F51, `C60_counterexample_dangling`), a references
Group that is not directly in the root Group, structured arrays, and a root Group with entries of the same names or with attributes. -/
theorem C60_root_partial {x : Ctx} (hR : RtOpts x.o) {n : Nat} {F F' : FileS} {p : PathArg} {v : Val} (hw : WroteRoot x n F p v F') (hm : IsMapping v)
    (hv : Good x.o v) (hf : RootFree x.o F v) (ha : RootAlone x.o F.st.heap v) : ReadsBack x n F'.st.heap [] v := by
  obtain ⟨keys, vals, struct, ts, hd⟩ := mapping_like hm hv
  obtain ⟨m, attrs, links, oids, rfl, hg, _, hh⟩ := wroteRoot_dict hR hw hd hv hf
  exact rootDict_whole hR hw.refs hd hg hh ha

/-- C60.  A dict with string keys is written to the root Group, whatever else is in it and whatever attributes it has: each of its values can be read under its
name. -/
theorem C60_entries {x : Ctx} (hR : RtOpts x.o) {n : Nat} {F F' : FileS} {p : PathArg} {v : Val} (hw : WroteRoot x n F p v F') {texts : List Str} {vals : List Val}
    (hm : HasFields v texts vals) (hv : Good x.o v) (hf : RootFree x.o F v) {t k : Str} {w : Val} (ht : (t, w) ∈ texts.zip vals) (hk : escapePath t = .ok k) :
    ReadsBack x n F'.st.heap [k] w := by
  obtain ⟨hi, hT⟩ := reach_keep hw.refs hR.names hw.reach
  obtain ⟨ob, h, _, _⟩ := wroteRoot_run hw hT.root
  obtain ⟨keys, struct, ts, hd, h1, h2⟩ := fields_like hm
  obtain ⟨m, attrs, links, oids, rfl, hg, hok, hh⟩ := wroteRoot_dict hR hw hd hv hf
  have hmem : (k, w) ∈ dictItems x.o keys vals := fields_items x.o h1 h2 ht hk
  have hne : (refsComps x.o).head? ≠ some k := hf.notRefs k (hg.names k (List.mem_map.mpr ⟨(k, w), hmem, rfl⟩))
  exact rootDict_entry hw.refs hh (Nat.le_succ m) hmem (hok _ hmem) hne

/-- C60.  Nothing but mappings and structured arrays can be written to the root Group: an exception is raised (or nothing is done, for data that is discarded), and the
file is not changed, if the value is not a container whose elements would be written first. -/
theorem C60_rejected {x : Ctx} (hN : NamesOk x.o) (hr : RefsPathOk x.o) {n : Nat} {F : FileS} (hF : Reach x F) {p : PathArg} (hp : Addr p []) {v : Val} (hv : IsSimple v) :
    (¬ Discarded x.o v → ∃ e, (fileWrite x n p v F).1 = .error e) ∧
    ((∀ k l, v ≠ .seq k l) → (∀ c sh l, v ≠ .npObj c sh l) → (fileWrite x n p v F).2 = F) := by
  obtain ⟨hi, ht⟩ := reach_keep hr hN hF
  obtain ⟨gs, h1, h2⟩ := root_addr hr hp
  have hone := writeOne_dot (x := x) (n := n) (v := v) h2 ht.root
  have hc : checkItems x.o.refsPath [(p, v)] = .ok [((gs, [dot]), v)] := by
    simp only [checkItems, h1, bind, Except.bind]
  unfold fileWrite fileWrites
  split
  · exact ⟨fun _ => ⟨_, rfl⟩, fun _ _ => rfl⟩
  rw [hc]
  dsimp only
  split
  · exact ⟨fun _ => ⟨_, rfl⟩, fun _ _ => rfl⟩
  cases hrun : writeData x n 0 [slash] [dot] v F.st with
  | mk res s' =>
    obtain ⟨a1, a2⟩ := simple_root hN hv hi ht hrun
    have hmany : ∃ r, writeMany x n [((gs, [dot]), v)] F.st = (r, s') ∧ (¬ Discarded x.o v → ∃ e, r = .error e) := by
      cases res with
      | error e => exact ⟨_, run_bind_err (hone.trans hrun), fun _ => ⟨e, rfl⟩⟩
      | ok ob =>
        cases ob with
        | some q => exact absurd rfl (a1 q)
        | none => exact ⟨_, (run_bind_ok (hone.trans hrun)).trans rfl, fun hd => absurd ((writeData_none hrun).mp rfl) hd⟩
    obtain ⟨r, h3, h4⟩ := hmany
    refine ⟨fun hd => ?_, fun b1 b2 => ?_⟩
    · obtain ⟨e, rfl⟩ := h4 hd
      unfold runFile
      rw [h3]
      dsimp only
      split
      · split
        · exact ⟨_, rfl⟩
        · exact ⟨_, rfl⟩
      · exact ⟨_, rfl⟩
    · unfold runFile
      rw [h3, a2 b1 b2]
      dsimp only
      split <;> rfl

/-- The value of the examples: `{'a': 5, 'b/c': [1, 'x']}`. -/
def exRoot : Val := .dict .dict [.str p!"a", .str p!"b/c"] [.int 5, .seq .list [.int 1, .str p!"x"]]

theorem ex_root_wrote : WroteRoot exX 10 exF (.str p!"/") exRoot (fileWrite exX 10 (.str p!"/") exRoot exF).2 where
  refs := ⟨rfl, by decide⟩
  reach := ex_reach
  rw := rfl
  addr := ⟨p!"/", p!".", by decide, by decide⟩
  draws := by
    intro i j _ _ h3
    rw [show (fileWrite exX 10 (.str p!"/") exRoot exF).2.st.rpos = 0 by decide +kernel] at h3
    omega
  ok := by rw [← show (fileWrite exX 10 (.str p!"/") exRoot exF).1 = .ok () by decide +kernel]

theorem ex_root_names {k : Str} (h : EntryName exX.o exRoot k) : k ≠ p!"#refs#" := by
  cases h with
  | keys _ _ _ => exact (by decide)
  | values _ _ _ => exact (by decide)
  | field hf hn =>
    obtain ⟨t, h1, h2⟩ := hn
    cases hf with
    | dict _ _ _ texts ht _ =>
      cases ht with
      | cons a1 a2 =>
        cases a2 with
        | cons b1 b2 =>
          cases b2
          cases a1
          cases b1
          simp only [List.mem_cons, List.not_mem_nil, or_false] at h1
          rintro rfl
          rcases h1 with rfl | rfl
          · exact absurd h2 (by decide)
          · exact absurd h2 (by decide)

theorem ex_root_free : RootFree exX.o exF exRoot where
  free := fun k _ => ex_free _ (by simp)
  notRefs := fun k h hc => ex_root_names h (by
    have : (hdf5Names exX.o.refsPath).head? = some p!"#refs#" := by decide
    rw [this] at hc
    exact (Option.some.inj hc).symm)
  noRefs := fun _ r _ => Or.inl (ex_free _ (by simp))

theorem ex_root_good : Good exX.o exRoot :=
  .dictText _ _ _ [p!"a", p!"b/c"] (.cons (.str _) (.cons (.str _) .nil)) (by decide) rfl (by
    intro v hv
    simp only [List.mem_cons, List.not_mem_nil, or_false] at hv
    rcases hv with rfl | rfl
    · exact .int 5
    · refine .seq _ _ (fun h => by cases h) ?_
      intro v hv
      simp only [List.mem_cons, List.not_mem_nil, or_false] at hv
      rcases hv with rfl | rfl
      · exact .int 1
      · exact .str _ (ex_goodText _ (by decide)))

/-- Non-vacuity of `C60_root_partial` and `C60_entries`. -/
example : WroteRoot exX 10 exF (.str p!"/") exRoot (fileWrite exX 10 (.str p!"/") exRoot exF).2 ∧ IsMapping exRoot ∧ Good exX.o exRoot ∧ RootFree exX.o exF exRoot ∧
    RootAlone exX.o exF.st.heap exRoot :=
  ⟨ex_root_wrote, trivial, ex_root_good, ex_root_free, ⟨_, rfl⟩, ⟨p!"#refs#", by decide⟩, fun h => absurd (Or.inl rfl) h⟩

/-- Non-vacuity of `C60_rejected`: a number and a discarded value. -/
example : Reach exX exF ∧ Addr (.str p!"/") [] ∧ IsSimple (.int 5) ∧ ¬ Discarded exX.o (.int 5) ∧ (fileWrite exX 10 (.str p!"/") (.int 5) exF).1 = .error .valueError ∧
    (fileWrite exX 10 (.str p!"/") (.seq .list [.int 5]) exF).1 = .error .valueError ∧ (fileWrite exX 10 (.str p!"/") (.seq .list [.int 5]) exF).2.st.heap ≠ exF.st.heap :=
  ⟨ex_reach, ⟨p!"/", p!".", by decide, by decide⟩, by exact trivial, (by rintro ⟨_, h, _⟩; cases h), by decide +kernel, by decide +kernel, by decide +kernel⟩

/-- F50: a key that has the references Group's name is accepted, but what is stored under it is not read. -/
theorem C60_counterexample_key : ∃ F', fileWrite exX 10 (.str p!"/") (.dict .dict [.str p!"#refs#"] [.int 1]) exF = (.ok (), F') ∧
    fileRead exX 10 (.str p!"/") F' = .ok (.dict .dict [] []) :=
  ⟨_, pair_of_fst (by decide +kernel), eq_of_isVal (by decide +kernel)⟩

/-- F51: writing a dict to the root Group after a list was written elsewhere deletes the references Group, but the `File` keeps on using it: what is stored then is
not in the file, and the references to it are dangling. -/
theorem C60_counterexample_dangling : ∃ F1 F2, fileWrite exX 10 (.str p!"/x") (.seq .list [.int 1]) exF = (.ok (), F1) ∧
    fileWrite exX 10 (.str p!"/") (.dict .dict [.str p!"b"] [.seq .list [.int 2]]) F1 = (.ok (), F2) ∧ ¬ ValidRefs exX.o F2.st.heap :=
  ⟨_, _, pair_of_fst (by decide +kernel), pair_of_fst (by decide +kernel),
    not_valid (ns := [p!"b"]) (by intro c hc; simp only [List.mem_singleton] at hc; subst hc; decide) (by decide +kernel)⟩

end HS
