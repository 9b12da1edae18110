import Verif.Lemmas.Copy
/-
Writing several variables, and copying one file into another: C75.
-/
namespace HS
open Spec

/-- C75. Several variables, of any kinds and nesting, are written with one call to unused names of a file in any state it can be in, whether with `writes` or with
`update`: with a recursion limit large enough nothing is raised, each of them reads back equal, and the file can take more. -/
theorem C75_variables {x : Ctx} (ho : RtOpts x.o) {items : List (Str × Val)} (hv : ∀ kv ∈ items, Writable x.o kv.2 ∧ Good x.o kv.2) :
    ∃ n0, ∀ n, n0 ≤ n → ∀ (F : FileS) (r : Str), Receives x F r → (∀ kv ∈ items, Variable x.o r kv.1 kv.2 ∧ ¬ Exists F.st.heap [kv.1]) → (items.map (·.1)).Nodup →
      ∃ F', fileWrites x n (items.map fun kv => (.str kv.1, kv.2)) F = (.ok (), F') ∧ mapUpdate x n (items.map fun kv => (.str kv.1, kv.2)) F = (.ok (), F') ∧
        Receives x F' r ∧ ∀ kv ∈ items, ReadsBack x n F'.st.heap [kv.1] kv.2 := by
  obtain ⟨n0, h0⟩ := exists_bound (l := items) (P := fun n kv => RefsOk x → CanOverwrite x.o → NamesOk x.o → WrGo x (writeData x n) kv.2) fun kv hkv => writable_all (hv kv hkv).1
  refine ⟨n0, fun n hn F r hR hk hd => ?_⟩
  have hnm := Spec.RtOpts.names ho
  cases items with
  | nil =>
    refine ⟨F, ?_, rfl, hR, fun _ h => by cases h⟩
    rw [← C64_update hR.refsOk n (by simp) hR.isOpen (reach_writable hR.reach) hR.rw]
    rfl
  | cons kv0 items =>
  have hro : RefsOk x := (hR.canWrite hnm (hk kv0 (by simp)).1).refsOk
  generalize kv0 :: items = items at hv h0 hk hd
  obtain ⟨F', h1, h2, h3⟩ := hR.steps hnm (fun kv hkv => h0 n hn kv hkv hro hR.over hnm) (fun kv hkv => (hk kv hkv).1)
  have hgp : ∀ kv ∈ items, GoodPath x.o (.str kv.1) := fun kv hkv => (hR.canWrite hnm (hk kv hkv).1).goodPath
  refine ⟨F', ?_, h1, h2, ?_⟩
  · rw [← C64_update hR.refsOk n ?_ hR.isOpen (reach_writable hR.reach) hR.rw]
    · exact h1
    · intro pv hpv
      obtain ⟨kv, hkv, rfl⟩ := List.mem_map.mp hpv
      exact hgp kv hkv
  · exact updated_reads ho hR.refsOk hR.reach hR.isOpen hR.rw (fun kv hkv => ⟨(hk kv hkv).1.name, (hk kv hkv).1.notUp, (hk kv hkv).2, (hv kv hkv).2⟩) hd hgp
      (fun i j _ _ hj => by rw [h3] at hj; omega) h1

/-- C75 (partial). A file is copied into another one with `f.update(g)`, the one opened with any options and the other with any that allow round trips, and this
raises nothing: then `f` gives under every name in `g` the value that `g` gives.  Missing: files `g` with a name that sorts before the name of the references Group
(finding F7, see `C75_counterexample`). -/
theorem C75_copy_partial {y x : Ctx} {r : Str} (hr : y.o.refsPath = slash :: r) (hrn : IsName r) {G : FileS} (hG : G.isOpen = true) (hd : DistinctNames G.st.heap)
    (hs : ∀ k, Exists G.st.heap [k] → k ≠ r → strLt r k = true) {m : Nat} (ho : RtOpts x.o) (hp : RefsPathOk x.o) {n : Nat} {F F' : FileS} (hF : Reach x F)
    (hO : F.isOpen = true) (hrw : F.ro = false)
    (hk : ∀ k, Exists G.st.heap [k] → k ≠ r → IsName k ∧ k ≠ [dot, dot] ∧ (hdf5Names x.o.refsPath).head? ≠ some k ∧ ¬ Exists F.st.heap [k])
    (hg : ∀ k v, Exists G.st.heap [k] → k ≠ r → fileRead y m (.str k) G = .ok v → Good x.o v) (hdr : DistinctDraws x F.st.rpos F'.st.rpos)
    (h : mapUpdateFrom y m G x n F = (.ok (), F')) :
    ∀ k, Exists G.st.heap [k] → k ≠ r → ∃ v, fileRead y m (.str k) G = .ok v ∧ ReadsBack x n F'.st.heap [k] v := by
  obtain ⟨ks, h1, h2⟩ := iter_lists hr hrn hG hd hs
  unfold mapUpdateFrom at h
  rw [h2] at h
  dsimp only at h
  obtain ⟨l, h3, h4⟩ := mapCopy_iff.mp h
  obtain ⟨h5, h6⟩ := readNames_iff.mp h3
  have hkl : ∀ kv ∈ l, Exists G.st.heap [kv.1] ∧ kv.1 ≠ r := by
    intro kv hkv
    have : kv.1 ∈ ks := by rw [← h5]; exact List.mem_map.mpr ⟨kv, hkv, rfl⟩
    have := (h1.2 kv.1).mp this
    exact ⟨this.1, fun e => this.2 (by rw [e])⟩
  have hgp : ∀ kv ∈ l, GoodPath x.o (.str kv.1) := by
    intro kv hkv
    obtain ⟨a, b⟩ := hkl kv hkv
    obtain ⟨c, d, e, _⟩ := hk _ a b
    exact goodPath_name c d e
  have := updated_reads ho hp hF hO hrw (fun kv hkv => by
    obtain ⟨a, b⟩ := hkl kv hkv
    obtain ⟨c, d, _, f⟩ := hk _ a b
    exact ⟨c, d, f, hg _ _ a b (h6 kv hkv)⟩) (by rw [h5]; exact h1.1) hgp hdr h4
  intro k hk1 hk2
  have hm : k ∈ ks := (h1.2 k).mpr ⟨hk1, fun e => hk2 (by cases e; rfl)⟩
  rw [← h5] at hm
  obtain ⟨kv, hkv, rfl⟩ := List.mem_map.mp hm
  exact ⟨kv.2, h6 kv hkv, this kv hkv⟩

/-- C75 (partial). Copying succeeds: if everything in `g` can be read and written, `f.update(g)` raises nothing with a recursion limit large enough, and afterwards
`f` gives under every name in `g` the value that `g` gives.  Missing: the same as in `C75_copy_partial`. -/
theorem C75_copy_succeeds_partial {y x : Ctx} {r : Str} (hr : y.o.refsPath = slash :: r) (hrn : IsName r) {G : FileS} (hG : G.isOpen = true) (hd : DistinctNames G.st.heap)
    (hs : ∀ k, Exists G.st.heap [k] → k ≠ r → strLt r k = true) {m : Nat} (ho : RtOpts x.o)
    (hv : ∀ k, Exists G.st.heap [k] → k ≠ r → ∃ v, fileRead y m (.str k) G = .ok v ∧ Writable x.o v ∧ Good x.o v) :
    ∃ n0, ∀ n, n0 ≤ n → ∀ (F : FileS) (t : Str), Receives x F t →
      (∀ k v, Exists G.st.heap [k] → k ≠ r → fileRead y m (.str k) G = .ok v → Variable x.o t k v ∧ ¬ Exists F.st.heap [k]) →
      ∃ F', mapUpdateFrom y m G x n F = (.ok (), F') ∧ Receives x F' t ∧
        ∀ k, Exists G.st.heap [k] → k ≠ r → ∃ v, fileRead y m (.str k) G = .ok v ∧ ReadsBack x n F'.st.heap [k] v := by
  obtain ⟨ks, h1, h2⟩ := iter_lists hr hrn hG hd hs
  have hks : ∀ k ∈ ks, Exists G.st.heap [k] ∧ k ≠ r := by
    intro k hk
    have := (h1.2 k).mp hk
    exact ⟨this.1, fun e => this.2 (by rw [e])⟩
  obtain ⟨l, hl⟩ := readNames_ok (x := y) (n := m) (F := G) (ks := ks) fun k hk => (hv k (hks k hk).1 (hks k hk).2).imp fun _ h => h.1
  obtain ⟨h5, h6⟩ := readNames_iff.mp hl
  have hkl : ∀ kv ∈ l, Exists G.st.heap [kv.1] ∧ kv.1 ≠ r := fun kv hkv => hks _ (by rw [← h5]; exact List.mem_map.mpr ⟨kv, hkv, rfl⟩)
  obtain ⟨n0, h0⟩ := C75_variables ho (items := l) (by
    intro kv hkv
    obtain ⟨a, b⟩ := hkl kv hkv
    obtain ⟨v, e, hw⟩ := hv _ a b
    rw [h6 kv hkv] at e
    cases e
    exact hw)
  refine ⟨n0, fun n hn F t hR hvar => ?_⟩
  obtain ⟨F', _, h7, h8, h9⟩ := h0 n hn F t hR (fun kv hkv => hvar _ _ (hkl kv hkv).1 (hkl kv hkv).2 (h6 kv hkv)) (by rw [h5]; exact h1.1)
  refine ⟨F', ?_, h8, ?_⟩
  · unfold mapUpdateFrom
    rw [h2]
    exact mapCopy_iff.mpr ⟨l, hl, h7⟩
  · intro k hk1 hk2
    have hm : k ∈ ks := (h1.2 k).mpr ⟨hk1, fun e => hk2 (by cases e; rfl)⟩
    rw [← h5] at hm
    obtain ⟨kv, hkv, rfl⟩ := List.mem_map.mp hm
    exact ⟨kv.2, h6 kv hkv, h9 kv hkv⟩

/-- C75. Copying leaves alone what is not below a name in `g`, whether or not it raises something in the middle: it is there afterwards if and only if it was before,
and reading it gives exactly the same. -/
theorem C75_others {y x : Ctx} {G : FileS} {m : Nat} (hp : RefsPathOk x.o) (hn : NamesOk x.o) {n : Nat} {F : FileS} (hF : Reach x F)
    (hk : ∀ k, Exists G.st.heap [k] → IsName k ∧ k ≠ [dot, dot]) {q : PathArg} {c : Str} {ms : List Str} (hq : Addr q (c :: ms)) (hc : ¬ Exists G.st.heap [c])
    (hh : (hdf5Names x.o.refsPath).head? ≠ some c) :
    (Exists (mapUpdateFrom y m G x n F).2.st.heap (c :: ms) ↔ Exists F.st.heap (c :: ms)) ∧
    (SelfContained x.o F.st.heap (c :: ms) → Exists F.st.heap (c :: ms) → (mapUpdateFrom y m G x n F).2.isOpen = true →
      ∀ j, fileRead x j q (mapUpdateFrom y m G x n F).2 = fileRead x j q F) := by
  have : ∃ ops, (mapUpdateFrom y m G x n F).2 = (fileOps x n ops F).2 ∧ ∀ op ∈ ops, ∃ k, Exists G.st.heap [k] ∧ ∃ v, op = .write (.str k) v := by
    unfold mapUpdateFrom
    cases hi : fileIter y G with
    | error e => exact ⟨[], rfl, fun _ h => by cases h⟩
    | ok ks =>
      obtain ⟨ops, h1, h2⟩ := mapCopy_ops y m G x n ks F
      refine ⟨ops, h1, fun op hop => ?_⟩
      obtain ⟨k, hk, h⟩ := h2 op hop
      exact ⟨k, iter_mem hi k hk, h⟩
  obtain ⟨ops, h1, h2⟩ := this
  rw [h1]
  refine C35_local hp hn hF hq (by simp) (by simpa using fun e => hh e.symm) ?_
  intro op hop
  obtain ⟨k, hk1, v, rfl⟩ := h2 op hop
  intro ns hns
  obtain ⟨a, b⟩ := hk k hk1
  rw [addr_unique hns (addr_name a b)]
  have hkc : k ≠ c := fun e => hc (e ▸ hk1)
  refine ⟨?_, ?_⟩
  · rintro ⟨t, ht⟩; simp at ht; exact hkc ht.1
  · rintro ⟨t, ht⟩; simp at ht; exact hkc ht.1.symm

-- A file with a list and a number (and the references Group) is copied into a new file.
theorem ex_receives : Receives exX exF p!"#refs#" :=
  ⟨rfl, (by unfold IsName; decide), ⟨ascii_scalars (ascii_all rfl), fun _ => ascii_all rfl⟩, ex_reach, rfl, rfl, (ex_canWrite rfl (fun _ => rfl) ex_rtOpts.names .none).1.over,
    (ex_canWrite rfl (fun _ => rfl) ex_rtOpts.names .none).1.classes, (ex_canWrite rfl (fun _ => rfl) ex_rtOpts.names .none).2.1⟩

theorem ex_variable {k : Str} {v : Val} (hk : k = p!"a" ∨ k = p!"b") : Variable exX.o p!"#refs#" k v ∧ ¬ Exists exF.st.heap [k] := by
  rcases hk with rfl | rfl <;>
    exact ⟨⟨(by unfold IsName; decide), by decide, by decide, ascii_scalars (ascii_all rfl), fun _ _ => ascii_all rfl⟩, ex_free _ (by simp)⟩

example : RtOpts exX.o ∧ exX.o.refsPath = slash :: p!"#refs#" ∧ IsName p!"#refs#" ∧ exMap.isOpen = true ∧ DistinctNames exMap.st.heap ∧
    (∀ k, Exists exMap.st.heap [k] → k ≠ p!"#refs#" → strLt p!"#refs#" k = true) ∧
    (∀ k, Exists exMap.st.heap [k] → k ≠ p!"#refs#" → ∃ v, fileRead exX 10 (.str k) exMap = .ok v ∧ Writable exX.o v ∧ Good exX.o v) ∧
    Receives exX exF p!"#refs#" ∧
    (∀ k v, Exists exMap.st.heap [k] → k ≠ p!"#refs#" → fileRead exX 10 (.str k) exMap = .ok v → Variable exX.o p!"#refs#" k v ∧ ¬ Exists exF.st.heap [k]) := by
  refine ⟨ex_rtOpts, rfl, (by unfold IsName; decide), by decide +kernel, ?_, ?_, ?_, ex_receives, ?_⟩
  · exact pres_ops (keysOk_elem exX.o) exOps (F := exF) (by
      intro p
      cases p with
      | zero => exact List.nodup_nil
      | succ p => exact List.nodup_nil)
  · intro k hk hr
    rcases ex_map_names k hk hr with rfl | rfl <;> decide
  · intro k hk hr
    rcases ex_map_names k hk hr with rfl | rfl
    · refine ⟨.seq .list [.int 1], eq_of_isVal (by decide +kernel), .seq _ _ ?_, .seq _ _ (fun h => by cases h) ?_⟩
      · intro e he; rw [List.mem_singleton.mp he]; exact .int _
      · intro e he; rw [List.mem_singleton.mp he]; exact .int _
    · exact ⟨.int 2, eq_of_isVal (by decide +kernel), .int _, .int _⟩
  · intro k v hk hr _
    exact ex_variable (ex_map_names k hk hr)
example : (fileIter exX (mapUpdateFrom exX 10 exMap exX 10 exF).2) = .ok [p!"a", p!"b"] := by decide +kernel

/-- F7: a file with a list under a name that sorts before that of the references Group cannot be copied: the names include that of the references Group, so an
exception is raised after the list was copied. -/
theorem C75_counterexample :
    let G := (fileOps exX 10 [.write (.str p!"!x") (.seq .list [.int 1])] exF).2
    raised (mapUpdateFrom exX 10 G exX 10 exF).1 = some .valueError ∧ fileContains (.str p!"!x") (mapUpdateFrom exX 10 G exX 10 exF).2 = .ok true := by
  decide +kernel

end HS
