import Verif.Lemmas.Limit
import Verif.Props.RoundTrip
import Verif.Props.File
/-
The recursion limit: C76.
-/
namespace HS
open Spec

theorem checkItems_vals {refs : Str} {items : List (PathArg × Val)} {tw : List ((Str × Str) × Val)} (h : checkItems refs items = .ok tw) : tw.map (·.2) = items.map (·.2) := by
  induction items generalizing tw with
  | nil => cases h; rfl
  | cons pv items ih =>
    obtain ⟨p, v⟩ := pv
    rw [checkItems] at h
    obtain ⟨gt, _, h⟩ := res_bind_ok.mp h
    obtain ⟨r, hr, h⟩ := res_bind_ok.mp h
    cases h
    rw [List.map_cons, List.map_cons, ih hr]

/-- C76. The recursion limit has no influence on writing, whether or not it raises something, as long as it is not smaller than the nesting of the values. -/
theorem C76_write_limit (x : Ctx) {n m : Nat} (hm : n ≤ m) {items : List (PathArg × Val)} (hv : ∀ pv ∈ items, nesting pv.2 ≤ n) (F : FileS) :
    fileWrites x m items F = fileWrites x n items F := by
  unfold fileWrites
  split
  · rfl
  cases hc : checkItems x.o.refsPath items with
  | error e => rfl
  | ok tw =>
    dsimp only
    rw [writeMany_sim (x := x) (n := n) (m := m) sim_eq fun gv hgv => writeData_limit n hm _ ?_]
    have : gv.2 ∈ items.map (·.2) := by rw [← checkItems_vals hc]; exact List.mem_map.mpr ⟨gv, hgv, rfl⟩
    obtain ⟨pv, hpv, e⟩ := List.mem_map.mp this
    rw [← e]
    exact hv pv hpv

/-- C76. Whatever the limit was, a write that raised nothing does the same with any larger limit. -/
theorem C76_write_more (x : Ctx) {n m : Nat} (hm : n ≤ m) {items : List (PathArg × Val)} {F F' : FileS} (h : fileWrites x n items F = (.ok (), F')) :
    fileWrites x m items F = (.ok (), F') := by
  unfold fileWrites at h ⊢
  split
  · rename_i hw; rw [if_pos hw] at h; cases h
  · rename_i hw
    rw [if_neg hw] at h
    cases hc : checkItems x.o.refsPath items with
    | error e => rw [hc] at h; cases h
    | ok tw =>
      rw [hc] at h
      dsimp only at h ⊢
      split
      · rename_i ho; rw [if_pos ho] at h; cases h
      · rename_i ho
        rw [if_neg ho] at h
        have hle := writeMany_sim (x := x) (n := n) (m := m) (l := tw) sim_le fun gv _ => writeData_mono n hm _
        unfold runFile at h ⊢
        dsimp only at h ⊢
        cases hr : writeMany x n tw F.st with
        | mk r s' =>
        rw [hr] at h
        cases r with
        | error e => split at h
                     · split at h <;> cases h
                     · cases h
        | ok u => rw [hle _ _ _ hr]; exact h

/-- C76. The recursion limit has no influence on reading, whether or not it raises something, as long as it is not smaller than the depth of what is stored there. -/
theorem C76_read_limit (x : Ctx) {n m : Nat} (hm : n ≤ m) {F : FileS} {p : PathArg} {ns : List Str} (ha : Addr p ns)
    (hd : ∀ q, LPath F.st.heap ns q → StoredDepth F.st.heap n q) : fileRead x m p F = fileRead x n p F := by
  rw [fileRead_eq, fileRead_eq]
  cases hc : checkPath x.o.refsPath p with
  | error e => rfl
  | ok gt =>
    obtain ⟨g, t⟩ := gt
    dsimp only
    have hp := check_addr hc
    have := addr_unique ha ⟨g, t, hp, rfl⟩
    subst this
    split
    · rfl
    unfold readOne
    dsimp only
    split
    · cases hr : resolve F.st.heap 0 (commonComps g) with
      | none => rfl
      | some q =>
        dsimp only
        split
        · split
          · cases hl : hlook F.st.heap q t with
            | none => rfl
            | some r =>
              dsimp only
              refine readData_limit (hd r ?_) hm
              have hq := lpath_resolve (commonComps_plain g) hr
              rcases processPath_names hp with ⟨h4, h5, h6⟩ | ⟨h4, h5, _⟩
              · rw [h4] at hl
                unfold hlook at hl
                rw [if_pos rfl] at hl
                cases hl
                rw [h6, List.append_nil]
                exact hq
              · rw [h4]
                rw [hlook_plain _ _ _ h5] at hl
                exact .snoc hq hl
          · rfl
        · rfl
    · rfl

/-- C76. A value that was written, with whatever limit, is read back whole with every limit that is not smaller than its nesting. -/
theorem C76_round_trip {x : Ctx} (ho : RtOpts x.o) {n : Nat} {F F' : FileS} {p : PathArg} {ns : List Str} {v : Val} (hw : WroteNew x n F p ns v F') (hv : Good x.o v) :
    ReadsBack x (nesting v) F'.st.heap ns v := by
  obtain ⟨h1, h2, h3, h4, h5, h6, h7, h8⟩ := hw
  refine file_rt ho ⟨h1, h2, h3, h4, h5, h6, h7, ?_⟩ hv
  rcases Nat.le_total n (nesting v) with h | h
  · exact C76_write_more x h h8
  · rw [← h8]
    exact (C76_write_limit x h (items := [(p, v)]) (by simp) F).symm

/-- C76 (partial). If sequences are nested too deep for the recursion limit reading them raises an exception.  Missing: the same for dicts, records and structs, of
which what is nested too deep is left out (finding F61, see `C76_counterexample`). -/
theorem C76_too_deep_partial (x : Ctx) {n : Nat} {F : FileS} {p : PathArg} {ns : List Str} (ha : Addr p ns) (hne : ns ≠ [])
    (hd : ∀ q, LPath F.st.heap ns q → TooDeep F.st.heap n q) : ∃ e, fileRead x n p F = .error e := by
  have key : ∀ {q : Nat}, TooDeep F.st.heap n q → ∃ e, readData x.o (viewOf F.st.heap) (exclOf x.o F.st.heap) n q = .error e := by
    intro q hq
    clear hd
    induction hq with
    | zero q => exact ⟨_, rfl⟩
    | step n q r attrs a f t h1 h2 h3 h4 h5 _ ih =>
      obtain ⟨e, he⟩ := ih
      exact readData_seq_err h1 h2 h3 h4 h5 he
  rw [fileRead_eq]
  cases hc : checkPath x.o.refsPath p with
  | error e => exact ⟨e, rfl⟩
  | ok gt =>
    obtain ⟨g, t⟩ := gt
    dsimp only
    have hp := check_addr hc
    have := addr_unique ha ⟨g, t, hp, rfl⟩
    subst this
    split
    · exact ⟨_, rfl⟩
    unfold readOne
    dsimp only
    split
    · cases hr : resolve F.st.heap 0 (commonComps g) with
      | none => exact ⟨_, rfl⟩
      | some q =>
        dsimp only
        split
        · split
          · cases hl : hlook F.st.heap q t with
            | none => exact ⟨_, rfl⟩
            | some r =>
              dsimp only
              refine key (hd r ?_)
              have hq := lpath_resolve (commonComps_plain g) hr
              rcases processPath_names hp with ⟨h4, h5, h6⟩ | ⟨h4, h5, _⟩
              · exact absurd (by rw [h5, h6]; rfl) hne
              · rw [h4]
                rw [hlook_plain _ _ _ h5] at hl
                exact .snoc hq hl
          · exact ⟨_, rfl⟩
        · exact ⟨_, rfl⟩
    · exact ⟨_, rfl⟩

/-- A dict in a dict with a list in it. -/
def exDeepDict : Val := .dict .dict [.str p!"a"] [.dict .dict [.str p!"b"] [.seq .list [.int 1]]]

-- How deep some values are.
example : nesting (.int 1) = 1 ∧ nesting (.seq .list [.seq .list [.int 1], .int 2]) = 3 ∧ nesting exDeepDict = 6 := by decide +kernel

-- The limits have an effect: with 10 the value is written, with 2 it is not, and with 6 it is read.
example : (fileWrite exX 10 (.str p!"/x/y") exDeepDict exF).1 = .ok () ∧ raised (fileWrite exX 2 (.str p!"/x/y") exDeepDict exF).1 = some .other ∧
    fileRead exX 6 (.str p!"/x/y") (fileWrite exX 10 (.str p!"/x/y") exDeepDict exF).2 = .ok exDeepDict :=
  ⟨by decide +kernel, by decide +kernel, eq_of_isVal (by decide +kernel)⟩

-- What is stored then is 4 deep, so that all limits from there on give the same; and the limit 10 is enough for all of it.
example : (∀ q, LPath (fileWrite exX 10 (.str p!"/x/y") exDeepDict exF).2.st.heap [p!"x", p!"y"] q →
      StoredDepth (fileWrite exX 10 (.str p!"/x/y") exDeepDict exF).2.st.heap 4 q) ∧ Addr (.str p!"/x/y") [p!"x", p!"y"] := by
  refine ⟨fun q hq => depthOk_stored ?_, ⟨p!"/x", p!"y", by decide, by decide⟩⟩
  have h1 : resolve (fileWrite exX 10 (.str p!"/x/y") exDeepDict exF).2.st.heap 0 [p!"x", p!"y"] = some 2 := by decide +kernel
  rw [resolve_lpath (by unfold PlainNames; decide) hq] at h1
  cases h1
  decide +kernel

-- A list in a list is too deep for the limit 2: it is not read.
example : ∀ q, LPath (fileWrite exX 10 (.str p!"/x/y") (.seq .list [.seq .list [.int 1]]) exF).2.st.heap [p!"x", p!"y"] q →
    TooDeep (fileWrite exX 10 (.str p!"/x/y") (.seq .list [.seq .list [.int 1]]) exF).2.st.heap 2 q := by
  intro q hq
  have h1 : (resolve (fileWrite exX 10 (.str p!"/x/y") (.seq .list [.seq .list [.int 1]]) exF).2.st.heap 0 [p!"x", p!"y"]).all
    (deepOk (fileWrite exX 10 (.str p!"/x/y") (.seq .list [.seq .list [.int 1]]) exF).2.st.heap 2) = true := by decide +kernel
  generalize (fileWrite exX 10 (.str p!"/x/y") (.seq .list [.seq .list [.int 1]]) exF).2.st.heap = h at hq h1
  rw [resolve_lpath (by unfold PlainNames; decide) hq, Option.all_some] at h1
  exact deepOk_too h1

/-- F61: what is nested too deep in dicts is left out without an exception, so that less is read than was written. -/
theorem C76_counterexample : (fileWrite exX 10 (.str p!"/x/y") exDeepDict exF).1 = .ok () ∧
    fileRead exX 3 (.str p!"/x/y") (fileWrite exX 10 (.str p!"/x/y") exDeepDict exF).2 = .ok (.dict .dict [.str p!"a"] [.dict .dict [] []]) ∧
    fileRead exX 2 (.str p!"/x/y") (fileWrite exX 10 (.str p!"/x/y") exDeepDict exF).2 = .ok (.dict .dict [.str p!"a"] [.dict .dict [] []]) ∧
    fileRead exX 1 (.str p!"/x/y") (fileWrite exX 10 (.str p!"/x/y") exDeepDict exF).2 = .ok (.dict .dict [] []) := by
  exact ⟨by decide +kernel, eq_of_isVal (by decide +kernel), eq_of_isVal (by decide +kernel), eq_of_isVal (by decide +kernel)⟩

end HS
