import Verif.Lemmas.Text
import Verif.Props.Storage
import Verif.Props.Local
/-
C63: how text is stored.
-/
namespace HS
open Spec

theorem textData_leaf {o : COpts} {v : Val} {u : Arr} (h : TextData o v u) : ∃ c a, leafOf v = some (c, a) ∧ a.dt.matlabClass = some p!"char" := by
  have ht : ∀ {n sh ss}, TextOf v n sh ss → ∃ c a, leafOf v = some (c, a) ∧ a.dt.matlabClass = some p!"char" := by
    intro n sh ss h
    cases h <;> exact ⟨_, _, rfl, rfl⟩
  have hb : ∀ {n sh ss}, BytesOf v n sh ss → ∃ c a, leafOf v = some (c, a) ∧ a.dt.matlabClass = some p!"char" := by
    intro n sh ss h
    cases h with
    | bigInt i d h1 h2 => exact ⟨_, _, by rw [leafOf, if_neg (by omega)], rfl⟩
    | bigNegInt i d h1 h2 => exact ⟨_, _, by rw [leafOf, if_neg (by omega)], rfl⟩
    | dtypeObj s b h1 => exact ⟨_, _, by rw [leafOf, h1], rfl⟩
    | _ => exact ⟨_, _, rfl, rfl⟩
  cases h with
  | utf16 h => exact ht h
  | utf32 h => exact ht h
  | empty h => exact ht h
  | bytes16 h => exact hb h
  | bytes h => exact hb h
  | empty16 h => exact hb h
  | width0 h => exact hb h

/-- C63. Whatever was at the place before, after text was written there is a Dataset that holds the text in the documented encoding (`TextData`): str as UTF-16 units
(uint16) if the option is on and no character needs a doublet, else as UTF-32 units (uint32); bytes as UTF-16 if that option is on and they are ASCII, else as bytes.
Partial: arrays of str need an element that fills the width of the dtype (`AsDocumented`, see the counterexamples, finding F53). -/
theorem C63_text_partial {x : Ctx} (hN : NamesOk x.o) {n : Nat} {F F' : FileS} {p : PathArg} {ns : List Str} {v : Val} {u : Arr} (ht : TextData x.o v u) (hd : AsDocumented x.o v)
    (hw : Wrote x n F p ns v F') :
    ∃ b f sz, DsetAt F'.st.heap ns b f ∧ (x.o.storeShape = true ∧ NoElements v → HoldsShape x.o u b) ∧ (¬ (x.o.storeShape = true ∧ NoElements v) → HoldsArray x.o u b) ∧
      DataSize b sz ∧ AsAsked x.o b.shape sz f := by
  obtain ⟨c, a, hl, hc⟩ := textData_leaf ht
  obtain ⟨d, f, h1, h2, h3, _⟩ := wrote_leafOf hN hl hw (by rw [hc]; rintro ⟨_, h, _⟩; cases h)
  obtain ⟨e1, e2⟩ := text_stored ht hd hl h1
  exact ⟨_, f, _, h2, (fun h => e1 ⟨h.1, (leaf_empty hl).mp h.2⟩), (fun h => e2 (fun h' => h ⟨h'.1, (leaf_empty hl).mpr h'.2⟩)), h5Store_size d, h3⟩

/-- C63. For a Python str that does not end in NUL nothing is missing. -/
theorem C63_str {x : Ctx} (hN : NamesOk x.o) {n : Nat} {F F' : FileS} {p : PathArg} {ns : List Str} {s : Str} (hs : s.getLast? ≠ some 0) {u : Arr} (ht : TextData x.o (.str s) u)
    (hw : Wrote x n F p ns (.str s) F') :
    ∃ b f sz, DsetAt F'.st.heap ns b f ∧ (x.o.storeShape = true ∧ NoElements (.str s) → HoldsShape x.o u b) ∧
      (¬ (x.o.storeShape = true ∧ NoElements (.str s)) → HoldsArray x.o u b) ∧ DataSize b sz ∧ AsAsked x.o b.shape sz f := by
  refine C63_text_partial hN ht ?_ hw
  intro n sh ss h _
  cases h
  exact ⟨fun _ _ => ⟨fun _ => ⟨s, by simp, hs⟩, fun h => ⟨s, by simp, (fun h' => h (by simpa using h')), hs⟩⟩, fun _ h => by cases h⟩

/-- C63. Nor is there for bytes, bytearrays, large ints, `np.dtype` objects and arrays of bytes. -/
theorem C63_bytes {x : Ctx} (hN : NamesOk x.o) {n k : Nat} {F F' : FileS} {p : PathArg} {ns : List Str} {v : Val} {sh : List Nat} {bs : List Bytes} (hb : BytesOf v k sh bs) {u : Arr}
    (ht : TextData x.o v u) (hw : Wrote x n F p ns v F') :
    ∃ b f sz, DsetAt F'.st.heap ns b f ∧ (x.o.storeShape = true ∧ NoElements v → HoldsShape x.o u b) ∧ (¬ (x.o.storeShape = true ∧ NoElements v) → HoldsArray x.o u b) ∧
      DataSize b sz ∧ AsAsked x.o b.shape sz f := by
  refine C63_text_partial hN ht ?_ hw
  intro n sh ss h _
  cases h with
  | str => cases hb
  | np => cases hb

/-- C63. `TextData` says what is stored for every text. -/
theorem C63_all (o : COpts) {v : Val} {n : Nat} {sh : List Nat} {ss : List (List Nat)} (h : TextOf v n sh ss ∨ BytesOf v n sh ss) : ∃ u, TextData o v u := by
  rcases h with h | h
  · by_cases he : n = 0 ∨ 0 ∈ sh
    · exact ⟨_, .empty h he⟩
    · have h0 : n ≠ 0 := fun h => he (.inl h)
      have h1 : 0 ∉ sh := fun h => he (.inr h)
      by_cases hu : ToUtf16 o ss
      · exact ⟨_, .utf16 h h0 h1 hu⟩
      · exact ⟨_, .utf32 h h0 h1 hu⟩
  · cases ho : o.bytes16 with
    | true =>
      by_cases he : n = 0 ∨ 0 ∈ sh
      · exact ⟨_, .empty16 h he ho⟩
      · have h0 : n ≠ 0 := fun h => he (.inl h)
        have h1 : 0 ∉ sh := fun h => he (.inr h)
        by_cases hu : BytesToUtf16 o ss
        · exact ⟨_, .bytes16 h h0 h1 hu⟩
        · exact ⟨_, .bytes h h0 (.inl h1) hu⟩
    | false =>
      by_cases h0 : n = 0
      · subst h0
        exact ⟨_, .width0 h ho⟩
      · exact ⟨_, .bytes h h0 (.inr ho) (fun hu => by rw [hu.1] at ho; cases ho)⟩

/-- A `Wrote` into the empty example file. -/
theorem ex_wrote_any (v : Val) (hrun : (fileWrite exX 10 (.str p!"/x/y") v exF).1 = .ok ()) : Wrote exX 10 exF (.str p!"/x/y") [p!"x", p!"y"] v (fileWrite exX 10 (.str p!"/x/y") v exF).2 where
  refs := ⟨rfl, by decide⟩
  reach := ex_reach
  rw := rfl
  addr := ⟨p!"/x", p!"y", by decide, by decide⟩
  notRoot := by simp
  ok := pair_of_fst hrun

theorem ex_dsetAt {h : Heap} {q : Nat} {b : Arr} {f : Filters} (h1 : resolve h 0 [p!"x", p!"y"] = some q) (h2 : (h[q]?).map (·.body) = some (.dset b f)) :
    DsetAt h [p!"x", p!"y"] b f := by
  cases ho : h[q]? with
  | none => rw [ho] at h2; cases h2
  | some o =>
    rw [ho] at h2
    refine ⟨q, o.attrs, lpath_resolve (by unfold PlainNames; decide) h1, ?_⟩
    rw [ho]
    cases o
    cases h2
    rfl

-- The hypotheses are met: the text 'aé€' is stored in UTF-16, '𝄞b' in UTF-32; a 2x2 array of str of width 2 as 2x4 units; non-ASCII bytes as they are.
example : ∃ F', Wrote exX 10 exF (.str p!"/x/y") [p!"x", p!"y"] (.str [97, 233, 8364]) F' ∧ TextData exX.o (.str [97, 233, 8364]) ⟨.u16, [3], [.num 97, .num 233, .num 8364]⟩ :=
  ⟨_, ex_wrote_any _ (by decide +kernel), .utf16 (ss := [[97, 233, 8364]]) (.str _) (by decide) (by simp) ⟨rfl, by unfold Single; decide⟩⟩
example : ∃ F', Wrote exX 10 exF (.str p!"/x/y") [p!"x", p!"y"] (.str [119070, 98]) F' ∧ TextData exX.o (.str [119070, 98]) ⟨.u32, [2], [.num 119070, .num 98]⟩ :=
  ⟨_, ex_wrote_any _ (by decide +kernel), .utf32 (ss := [[119070, 98]]) (.str _) (by decide) (by simp) (by unfold ToUtf16 Single; decide)⟩
example : ∃ F', Wrote exX 10 exF (.str p!"/x/y") [p!"x", p!"y"] (.bytes [200, 98]) F' ∧ TextData exX.o (.bytes [200, 98]) ⟨.bytes 2, [], [.units [200, 98]]⟩ :=
  ⟨_, ex_wrote_any _ (by decide +kernel), .bytes (bs := [[200, 98]]) (.bytes _) (by decide) (.inl (by simp)) (by unfold BytesToUtf16; decide)⟩

def exText (ss : List Str) : Val := .np .ndarray ⟨.str 2, [2, 2], ss.map .units⟩

theorem ex_textOf (ss : List Str) (h : ∀ s ∈ ss, s.length = 2) (hl : ss.length = 4) : TextOf (exText ss) 2 [2, 2] ss :=
  .np _ _ _ _ h hl (by simp)

example : AsDocumented exX.o (exText [p!"ab", [99, 0], p!"de", [0, 0]]) ∧ (∃ F', Wrote exX 10 exF (.str p!"/x/y") [p!"x", p!"y"] (exText [p!"ab", [99, 0], p!"de", [0, 0]]) F') ∧
    TextData exX.o (exText [p!"ab", [99, 0], p!"de", [0, 0]])
      ⟨.u16, [2, 4], [.num 97, .num 98, .num 99, .num 0, .num 100, .num 101, .num 0, .num 0]⟩ := by
  refine ⟨?_, ⟨_, ex_wrote_any _ (by decide +kernel)⟩, .utf16 (ex_textOf _ (by decide) rfl) (by decide) (by decide) ⟨rfl, by unfold Single; decide⟩⟩
  intro n sh ss h _
  have hss : ss.map El.units = [p!"ab", [99, 0], p!"de", [0, 0]].map El.units ∧ sh = [2, 2] := by
    unfold exText at h
    generalize hd : (List.map El.units [p!"ab", [99, 0], p!"de", [0, 0]]) = d at h
    cases h
    exact ⟨hd.symm ▸ rfl, rfl⟩
  have : ss = [p!"ab", [99, 0], p!"de", [0, 0]] := (List.map_inj_right (fun x y h => by cases h; rfl)).mp hss.1
  subst this
  rw [hss.2]
  exact ⟨fun _ _ => ⟨fun _ => ⟨p!"ab", by simp, by decide⟩, fun h => absurd (by unfold Single; decide) h⟩, fun _ h => absurd h (by decide)⟩

/-- F53: in an array of str a character that needs a doublet goes unnoticed if the string with it is shorter than the longest one: np.array(['ab', '𝄞']) is stored as uint16
with a doublet, though it should be stored as uint32. -/
theorem C63_counterexample_doublets : ∃ F', Wrote exX 10 exF (.str p!"/x/y") [p!"x", p!"y"] (.np .ndarray ⟨.str 2, [2], [.units p!"ab", .units [119070, 0]]⟩) F' ∧
    (∃ b f, DsetAt F'.st.heap [p!"x", p!"y"] b f ∧ b.dt = .u16 ∧ b.data = [.num 97, .num 98, .num 0xD834, .num 0xDD1E]) ∧
    TextData exX.o (.np .ndarray ⟨.str 2, [2], [.units p!"ab", .units [119070, 0]]⟩) ⟨.u32, [4], [.num 97, .num 98, .num 119070, .num 0]⟩ := by
  refine ⟨_, ex_wrote_any _ (by decide +kernel), ?_,
    .utf32 (n := 2) (sh := [2]) (ss := [p!"ab", [119070, 0]]) (.np .ndarray 2 [2] [p!"ab", [119070, 0]] (by decide) rfl (by simp)) (by decide) (by decide) (by unfold ToUtf16 Single; decide)⟩
  refine ⟨⟨.u16, [4, 1], [.num 97, .num 98, .num 0xD834, .num 0xDD1E]⟩, ⟨none, some none, false, false, false⟩, ex_dsetAt (q := 2) (by decide +kernel) (by decide +kernel), rfl, rfl⟩

/-- F53: an array of str all of whose elements are shorter than the dtype is wide is stored as uint32 though everything can be stored in UTF-16. -/
theorem C63_counterexample_short : ∃ F', Wrote exX 10 exF (.str p!"/x/y") [p!"x", p!"y"] (.np .ndarray ⟨.str 2, [1], [.units [97, 0]]⟩) F' ∧
    (∃ b f, DsetAt F'.st.heap [p!"x", p!"y"] b f ∧ b.dt = .u32) ∧
    TextData exX.o (.np .ndarray ⟨.str 2, [1], [.units [97, 0]]⟩) ⟨.u16, [2], [.num 97, .num 0]⟩ := by
  refine ⟨_, ex_wrote_any _ (by decide +kernel), ?_,
    .utf16 (n := 2) (sh := [1]) (ss := [[97, 0]]) (.np .ndarray 2 [1] [[97, 0]] (by decide) rfl (by simp)) (by decide) (by decide) ⟨rfl, by unfold Single; decide⟩⟩
  refine ⟨⟨.u32, [2, 1], [.num 97, .num 0]⟩, ⟨none, some none, false, false, false⟩, ex_dsetAt (q := 2) (by decide +kernel) (by decide +kernel), rfl⟩

end HS
