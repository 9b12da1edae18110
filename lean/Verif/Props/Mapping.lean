import Verif.Lemmas.Mapping
import Verif.Props.Local
import Verif.Spec.Mapping
/-
C64: a `File` is a mutable mapping: the methods it inherits (`get`, `pop`, `popitem`, `clear`, `update`, `setdefault`, `items`, `values`).
-/
namespace HS
open Spec

/-- C64. Nothing is at the path: `get` and `pop` with a default give the default, `pop` without one raises `KeyError`, and the file stays as it is. -/
theorem C64_absent {x : Ctx} (hr : RefsPathOk x.o) (n : Nat) {F : FileS} (ho : F.isOpen = true) {p : PathArg} {ns : List Str} (hg : GoodPath x.o p) (ha : Addr p ns)
    (hok : ns.all nameOk = true) (hne : ¬ Exists F.st.heap ns) (d : Val) :
    mapGet x n p d F = .ok d ∧ mapPop x n p (some d) F = (.ok d, F) ∧ mapPop x n p none F = (.error .keyError, F) := by
  have h := read_absent (n := n) hr hg ha ho hok hne
  unfold mapGet mapPop
  rw [h]
  exact ⟨rfl, rfl, rfl⟩

/-- C64. Something that can be read is at the path: `get` and `setdefault` give it and leave the file as it is, `pop` gives it and afterwards everything else is as
before and what was there is not there any more. -/
theorem C64_present {x : Ctx} (hr : RefsPathOk x.o) (hn : NamesOk x.o) {n : Nat} {F : FileS} (hF : Reach x F) (hrw : F.ro = false) {p : PathArg} {ns : List Str} (ha : Addr p ns)
    (hne : ns ≠ []) {v : Val} (hv : fileRead x n p F = .ok v) (d : Val) :
    mapGet x n p d F = .ok v ∧ mapSetdefault x n p d F = (.ok v, F) ∧
    ∃ F', (∀ md, mapPop x n p md F = (.ok v, F')) ∧ F'.isOpen = true ∧ ∀ ms q, LPath F'.st.heap ms q ↔ LPath F.st.heap ms q ∧ ¬ ns <+: ms := by
  obtain ⟨_, _, ho, _⟩ := fileRead_ok.mp hv
  obtain ⟨F', h1, h2⟩ := (C38_delitem hr hn hF ho hrw ha hne (read_nameOk hv ha)).1 (read_exists hv ha)
  unfold mapGet mapSetdefault mapPop
  rw [hv]
  refine ⟨rfl, rfl, F', ?_, ?_, h2⟩
  · intro md
    dsimp only
    rw [h1]
  · have := (fileDel_same p F).1
    rw [h1] at this
    rw [this]; exact ho

/-- C64. Nothing is at the path: `setdefault` is writing the default, and gives the default. -/
theorem C64_setdefault {x : Ctx} (hr : RefsPathOk x.o) (n : Nat) {F : FileS} (ho : F.isOpen = true) {p : PathArg} {ns : List Str} (hg : GoodPath x.o p) (ha : Addr p ns)
    (hok : ns.all nameOk = true) (hne : ¬ Exists F.st.heap ns) (d : Val) :
    (∀ F', fileWrite x n p d F = (.ok (), F') → mapSetdefault x n p d F = (.ok d, F')) ∧
    (∀ e F', fileWrite x n p d F = (.error e, F') → mapSetdefault x n p d F = (.error e, F')) := by
  have h := read_absent (n := n) hr hg ha ho hok hne
  unfold mapSetdefault
  rw [h]
  exact ⟨fun F' h1 => by dsimp only; rw [h1], fun e F' h1 => by dsimp only; rw [h1]⟩

/-- C64. If reading raises something else than `KeyError` then `get`, `pop` and `setdefault` raise it, even with a default, and the file stays as it is. -/
theorem C64_other_exceptions {x : Ctx} {n : Nat} {F : FileS} {p : PathArg} {e : Exc} (h : fileRead x n p F = .error e) (he : e ≠ .keyError) (d : Val) :
    mapGet x n p d F = .error e ∧ mapSetdefault x n p d F = (.error e, F) ∧ ∀ md, mapPop x n p md F = (.error e, F) := by
  unfold mapGet mapSetdefault mapPop
  rw [h]
  cases e <;> first | exact absurd rfl he | exact ⟨rfl, rfl, fun _ => rfl⟩

-- A closed file, and a path into the references Group.
example : raised (fileRead exX 10 (.str p!"a") (fileClose exF).2) = some .osError ∧ raised (fileRead exX 10 (.str p!"/#refs#/a") exF) = some .valueError := by decide +kernel

theorem writes_good {x : Ctx} {n : Nat} {items : List (PathArg × Val)} {tw : List ((Str × Str) × Val)} (hc : checkItems x.o.refsPath items = .ok tw) {F : FileS}
    (ho : F.isOpen = true) (hw : F.writable = true) (hrw : F.ro = false) :
    fileWrites x n items F = ((writeMany x n tw F.st).1, { F with st := (writeMany x n tw F.st).2 }) := by
  unfold fileWrites
  rw [hw, hc]
  simp only [Bool.not_true, Bool.false_eq_true, if_false, ho]
  rw [runFile_rw _ hrw, ho, hw]

/-- C64. `update` with acceptable paths does what `writes` does, and raises what it raises. -/
theorem C64_update {x : Ctx} (hr : RefsPathOk x.o) (n : Nat) {items : List (PathArg × Val)} (hg : ∀ pv ∈ items, GoodPath x.o pv.1) {F : FileS} (ho : F.isOpen = true)
    (hw : F.writable = true) (hrw : F.ro = false) : mapUpdate x n items F = fileWrites x n items F := by
  induction items generalizing F with
  | nil =>
    rw [writes_good (tw := []) rfl ho hw hrw]
    rfl
  | cons pv r ih =>
    obtain ⟨p, v⟩ := pv
    obtain ⟨gt, hgt⟩ := good_check hr (hg (p, v) (by simp))
    obtain ⟨tr, htr⟩ := checkItems_good (l := r) fun q hq => good_check hr (hg q (by simp [hq]))
    have hc : checkItems x.o.refsPath ((p, v) :: r) = .ok ((gt, v) :: tr) := by
      rw [checkItems, hgt]
      simp only [bind, Except.bind]
      rw [htr]
    have hc1 : checkItems x.o.refsPath [(p, v)] = .ok [(gt, v)] := by
      rw [checkItems, hgt]; rfl
    rw [mapUpdate, fileWrite, writes_good hc1 ho hw hrw, writes_good hc ho hw hrw]
    cases h1 : writeOne x n gt v F.st with
    | mk a s =>
    cases a with
    | error e =>
      have h2 : ∀ l, writeMany x n ((gt, v) :: l) F.st = (.error e, s) := fun l => by
        rw [writeMany]; exact run_bind_err h1
      rw [h2, h2]
    | ok u =>
      have h2 : ∀ l, writeMany x n ((gt, v) :: l) F.st = writeMany x n l s := fun l => by
        rw [writeMany]; exact run_bind_ok h1
      rw [h2, h2]
      show mapUpdate x n r { F with st := s } = _
      rw [ih (F := { F with st := s }) (fun q hq => hg q (by simp [hq])) ho hw hrw, writes_good htr (F := { F with st := s }) ho hw hrw]

/-- C64. `update` where a path is not acceptable: unlike `writes` (`C36_writes_check_first`) what is before it is written. -/
theorem C64_update_stops {x : Ctx} (hr : RefsPathOk x.o) (n : Nat) {before after : List (PathArg × Val)} {p : PathArg} {v : Val} (hg : ∀ pv ∈ before, GoodPath x.o pv.1)
    (hb : BadPath x.o p) {F : FileS} (ho : F.isOpen = true) (hw : F.writable = true) (hrw : F.ro = false) (hok : (fileWrites x n before F).1 = .ok ()) :
    ∃ e, mapUpdate x n (before ++ (p, v) :: after) F = (.error e, (fileWrites x n before F).2) := by
  rw [← C64_update hr n hg ho hw hrw] at hok ⊢
  induction before generalizing F with
  | nil =>
    obtain ⟨e, he⟩ := bad_check hr hb
    refine ⟨e, ?_⟩
    have h1 : fileWrite x n p v F = (.error e, F) := by
      unfold fileWrite fileWrites
      rw [hw, checkItems, he]
      rfl
    have h2 : mapUpdate x n ((p, v) :: after) F = (.error e, F) := by rw [mapUpdate, h1]
    exact h2
  | cons pv r ih =>
    obtain ⟨q, w⟩ := pv
    rw [mapUpdate] at hok
    rw [List.cons_append, mapUpdate, mapUpdate]
    cases h1 : fileWrite x n q w F with
    | mk a F1 =>
    rw [h1] at hok
    cases a with
    | error e => cases hok
    | ok u =>
      have h2 := fileWrites_same x n [(q, w)] F
      have h3 : fileWrites x n [(q, w)] F = (.ok u, F1) := h1
      rw [h3] at h2
      exact ih (fun q hq => hg q (by simp [hq])) (h2.1.trans ho) (h2.2.1.trans hw) (h2.2.2.trans hrw) hok

/-- C64. `popitem` gives a name other than the references Group's and what is read there, and removes it and nothing else; if there is none it raises `KeyError`. -/
theorem C64_popitem {x : Ctx} {r : Str} (hr : x.o.refsPath = slash :: r) (hrn : IsName r) (hn : NamesOk x.o) {n : Nat} {F : FileS} (hF : Reach x F) (ho : F.isOpen = true)
    (hrw : F.ro = false) (he : Entries x n F r) :
    ((∀ k, Exists F.st.heap [k] → k = r) ∧ mapPopitem x n F = (.error .keyError, F)) ∨
    ∃ k v F', mapPopitem x n F = (.ok (k, v), F') ∧ k ≠ r ∧ Exists F.st.heap [k] ∧ fileRead x n (.str k) F = .ok v ∧ fileDel (.str k) F = (.ok (), F') ∧
      F'.isOpen = true ∧ ∀ ms q, LPath F'.st.heap ms q ↔ LPath F.st.heap ms q ∧ ¬ [k] <+: ms := by
  have hrp := refs_one hr hrn
  unfold mapPopitem
  rcases iter_first hr hrn ho with ⟨h1, h2⟩ | ⟨k, l, h1, h2, h3⟩
  · rw [h1]
    exact Or.inl ⟨h2, rfl⟩
  · rw [h1]
    obtain ⟨v, hv⟩ := he.reads k h2 h3
    obtain ⟨hk1, hk2⟩ := he.name k h2 h3
    have ha := addr_name hk1 hk2
    obtain ⟨F', h4, h5⟩ := (C38_delitem hrp hn hF ho hrw ha (by simp) (read_nameOk hv ha)).1 h2
    refine Or.inr ⟨k, v, F', ?_, h3, h2, hv, h4, ?_, h5⟩
    · dsimp only
      rw [hv]
      dsimp only
      rw [h4]
    · have := (fileDel_same (.str k) F).1
      rw [h4] at this
      rw [this]; exact ho

/-- C64. `clear` comes to an end and removes everything but the references Group, whatever the order of the names, if the entries can be read and do not refer
to other places than the references Group. -/
theorem C64_clear {x : Ctx} {r : Str} (hr : x.o.refsPath = slash :: r) (hrn : IsName r) (hn : NamesOk x.o) {n : Nat} {F : FileS} (hF : Reach x F) (ho : F.isOpen = true)
    (hrw : F.ro = false) (he : Entries x n F r) (hs : ∀ k, Exists F.st.heap [k] → k ≠ r → SelfContained x.o F.st.heap [k]) :
    ∃ turns F', mapClear x n turns F = some (.ok (), F') ∧ ∀ ms q, LPath F'.st.heap ms q ↔ LPath F.st.heap ms q ∧ (ms = [] ∨ [r] <+: ms) := by
  have hrp := refs_one hr hrn
  have hrc : hdf5Names x.o.refsPath = [r] := by rw [hr, refs_name hrn]
  have stop : ∀ {ks : List Str} {G : FileS}, (∀ ms q, LPath G.st.heap ms q ↔ LPath F.st.heap ms q ∧ ∀ k ∈ ks, ¬ [k] <+: ms) → (∀ k ∈ ks, Exists F.st.heap [k] ∧ k ≠ r) →
      (∀ k, Exists G.st.heap [k] → k = r) → ∀ ms q, LPath G.st.heap ms q ↔ LPath F.st.heap ms q ∧ (ms = [] ∨ [r] <+: ms) := by
    intro ks G hL hks hno ms q
    constructor
    · intro h
      refine ⟨((hL _ _).mp h).1, ?_⟩
      cases ms with
      | nil => exact Or.inl rfl
      | cons k ms =>
        obtain ⟨q', hq'⟩ := lpath_pre (l := [k]) (m := ms) h
        rw [hno k ⟨q', hq'⟩]
        exact Or.inr (List.prefix_append [r] ms)
    · rintro ⟨h1, h2⟩
      refine (hL _ _).mpr ⟨h1, fun k hk hp => ?_⟩
      rcases h2 with rfl | h2
      · obtain ⟨t, ht⟩ := hp; cases ht
      · obtain ⟨t, ht⟩ := hp
        obtain ⟨t', ht'⟩ := h2
        rw [← ht'] at ht
        cases ht
        exact (hks _ hk).2 rfl
  -- after the names `ks` were popped
  have key : ∀ (m : Nat) (ks : List Str) (G : FileS), ((akeys (linksOf F.st.heap 0)).filter fun k => decide (k ∉ ks)).length ≤ m →
      G = (fileOps x n (ks.map fun k => Op.del (.str k)) F).2 → Reach x G → G.isOpen = true → G.ro = false → (∀ k ∈ ks, Exists F.st.heap [k] ∧ k ≠ r) →
      (∀ ms q, LPath G.st.heap ms q ↔ LPath F.st.heap ms q ∧ ∀ k ∈ ks, ¬ [k] <+: ms) →
      ∃ F', mapClear x n (m + 1) G = some (.ok (), F') ∧ ∀ ms q, LPath F'.st.heap ms q ↔ LPath F.st.heap ms q ∧ (ms = [] ∨ [r] <+: ms) := by
    intro m
    induction m with
    | zero =>
      intro ks G hm hG hR hO hW hks hL
      have hno : ∀ k, Exists G.st.heap [k] → k = r := by
        intro k ⟨q, hq⟩
        obtain ⟨h1, h2⟩ := (hL _ _).mp hq
        apply Decidable.byContradiction
        intro _
        have h3 : k ∈ (akeys (linksOf F.st.heap 0)).filter fun k => decide (k ∉ ks) := by
          rw [List.mem_filter]
          refine ⟨exists_root.mp ⟨q, h1⟩, ?_⟩
          simp only [decide_eq_true_eq]
          exact fun hk => h2 k hk (List.prefix_refl _)
        rw [List.eq_nil_of_length_eq_zero (Nat.le_zero.mp hm)] at h3
        cases h3
      have := (iter_first hr hrn hO)
      rcases this with ⟨h1, h2⟩ | ⟨k, l, _, h2, h3⟩
      · refine ⟨G, ?_, stop hL hks hno⟩
        rw [mapClear, mapPopitem, h1]
      · exact absurd (hno k h2) h3
    | succ m ih =>
      intro ks G hm hG hR hO hW hks hL
      have hE : Entries x n G r := by
        refine ⟨fun k ⟨q, hq⟩ hk => he.name k ⟨q, ((hL _ _).mp hq).1⟩ hk, fun k ⟨q, hq⟩ hk => ?_⟩
        have hq' := (hL _ _).mp hq
        obtain ⟨hn1, hn2⟩ := he.name k ⟨q, hq'.1⟩ hk
        obtain ⟨v, hv⟩ := he.reads k ⟨q, hq'.1⟩ hk
        refine ⟨v, ?_⟩
        rw [← hv, hG]
        refine (C35_local hrp hn hF (addr_name hn1 hn2) (by simp) (by rw [hrc]; simpa using hk) ?_).2 (hs k ⟨q, hq'.1⟩ hk) ⟨q, hq'.1⟩ (hG ▸ hO) n
        intro op hop
        obtain ⟨k', hk', rfl⟩ := List.mem_map.mp hop
        intro ns hns
        obtain ⟨he', hr'⟩ := hks k' hk'
        obtain ⟨hm1, hm2⟩ := he.name k' he' hr'
        rw [addr_unique hns (addr_name hm1 hm2), hrc]
        have hkk : k' ≠ k := fun e => hq'.2 k' hk' (by rw [e]; exact List.prefix_refl _)
        refine ⟨⟨?_, ?_⟩, by simpa using hr'⟩
        · rintro ⟨t, ht⟩; cases ht; exact hkk rfl
        · rintro ⟨t, ht⟩; cases ht; exact hkk rfl
      rcases C64_popitem hr hrn hn hR hO hW hE with ⟨hno, h1⟩ | ⟨k, v, G', h1, hk, h2, h3, h4, h5, h6⟩
      · refine ⟨G, ?_, stop hL hks hno⟩
        rw [mapClear, h1]
      · rw [mapClear, h1]
        dsimp only
        obtain ⟨q, hq⟩ := h2
        have hq' := (hL _ _).mp hq
        refine ih (ks ++ [k]) G' ?_ ?_ ?_ h5 ?_ ?_ ?_
        · have := filter_less (l := akeys (linksOf F.st.heap 0)) (p := fun k' => decide (k' ∉ ks)) (q := fun k' => decide (k' ∉ ks ++ [k])) (a := k) (exists_root.mp ⟨q, hq'.1⟩)
            (by simp only [decide_eq_true_eq]; exact fun hk => hq'.2 k hk (List.prefix_refl _)) (by simp) (by intro b hb; simp at hb ⊢; exact hb.1)
          omega
        · rw [List.map_append, List.map_cons, List.map_nil, fileOps_snoc, ← hG]
          show G' = (fileDel (.str k) G).2
          rw [h4]
        · have := Reach.deleted (.str k) hR (by
            intro ns hns
            obtain ⟨hn1, hn2⟩ := hE.name k ⟨q, hq⟩ hk
            rw [addr_unique hns (addr_name hn1 hn2), hrc]
            simp only [List.head?_cons, ne_eq, Option.some.injEq]
            exact hk)
          rwa [h4] at this
        · have := (fileDel_same (.str k) G).2.2
          rw [h4] at this
          exact this.trans hW
        · intro k' hk'
          rcases List.mem_append.mp hk' with hk' | hk'
          · exact hks k' hk'
          · rw [List.mem_singleton.mp hk']
            exact ⟨⟨q, hq'.1⟩, hk⟩
        · intro ms q
          rw [h6, hL]
          simp only [List.mem_append, List.mem_singleton]
          constructor
          · rintro ⟨⟨a, b⟩, c⟩
            refine ⟨a, ?_⟩
            rintro k' (hk' | rfl)
            · exact b k' hk'
            · exact c
          · rintro ⟨a, b⟩
            exact ⟨⟨a, fun k' hk' => b k' (Or.inl hk')⟩, b k (Or.inr rfl)⟩
  obtain ⟨F', h1, h2⟩ := key _ [] F (Nat.le_refl _) rfl hF ho hrw (by simp) (by simp)
  exact ⟨_, F', h1, h2⟩

/-- C64 (partial). `items` yields, once each, every name in the root Group but the references Group's, with what is read there, and `values` these values, if they can
be read.  Missing: files with a name that sorts before the name of the references Group (finding F7, see `C64_counterexample`). -/
theorem C64_items_partial {x : Ctx} {r : Str} (hr : x.o.refsPath = slash :: r) (hrn : IsName r) (h : Heap) (hd : DistinctNames h) (w : Bool) (n : Nat)
    (ops : List Op) (ho : (fileOps x n ops (FileS.new h w)).2.isOpen = true) (m : Nat)
    (hs : ∀ k, Exists (fileOps x n ops (FileS.new h w)).2.st.heap [k] → k ≠ r → strLt r k = true)
    (he : ∀ k, Exists (fileOps x n ops (FileS.new h w)).2.st.heap [k] → k ≠ r → ∃ v, fileRead x m (.str k) (fileOps x n ops (FileS.new h w)).2 = .ok v) :
    ∃ l, mapItems x m (fileOps x n ops (FileS.new h w)).2 = .ok l ∧ mapValues x m (fileOps x n ops (FileS.new h w)).2 = .ok (l.map (·.2)) ∧
      ListsRoot (fileOps x n ops (FileS.new h w)).2.st.heap (some r) (l.map (·.1)) ∧
      ∀ kv ∈ l, fileRead x m (.str kv.1) (fileOps x n ops (FileS.new h w)).2 = .ok kv.2 := by
  obtain ⟨ks, h1, h2⟩ := C38_iter_partial hr hrn h hd w n ops ho hs
  generalize (fileOps x n ops (FileS.new h w)).2 = F at ho hs he h1 h2 ⊢
  have hl : ∃ l, readNames x m F ks = .ok l := by
    have : ∀ ks : List Str, (∀ k ∈ ks, ∃ v, fileRead x m (.str k) F = .ok v) → ∃ l, readNames x m F ks = .ok l := by
      intro ks
      induction ks with
      | nil => exact fun _ => ⟨[], rfl⟩
      | cons k ks ih =>
        intro hk
        obtain ⟨v, hv⟩ := hk k (by simp)
        obtain ⟨l, hl⟩ := ih fun k' hk' => hk k' (by simp [hk'])
        exact ⟨(k, v) :: l, by rw [readNames, hv]; exact res_bind_ok.mpr ⟨v, rfl, res_bind_ok.mpr ⟨l, hl, rfl⟩⟩⟩
    refine this ks fun k hk => ?_
    have := (h1.2 k).mp hk
    exact he k this.1 fun e => this.2 (by rw [e])
  obtain ⟨l, hl⟩ := hl
  obtain ⟨h3, h4⟩ := readNames_iff.mp hl
  have hi : mapItems x m F = .ok l := by
    unfold mapItems
    rw [h2]; exact hl
  refine ⟨l, hi, ?_, h3 ▸ h1, h4⟩
  unfold mapValues
  rw [hi]; rfl

/-- The example file with two values, one of them a list. -/
def exMap : FileS := (fileOps exX 10 exOps exF).2

theorem ex_map_keys : akeys (linksOf exMap.st.heap 0) = [p!"#refs#", p!"a", p!"b"] := by decide +kernel

theorem ex_map_reach : Reach exX exMap := by
  have h0 : ∀ (p : Str), processPath (.str p) = .ok ([slash], p) → hdf5Names p = [p] → ¬ Addr (.str p) [] := by
    intro p h1 h2 ha
    have := addr_unique ha ⟨_, _, h1, rfl⟩
    rw [h2] at this
    simp at this
  have h1 : Reach exX (fileWrites exX 10 [(.str p!"a", .seq .list [.int 1])] exF).2 := .wrote 10 _ ex_reach (by
    intro pv hpv; simp only [List.mem_singleton] at hpv; subst hpv; exact h0 _ (by decide) (by decide))
  have h2 := Reach.wrote 10 [(.str p!"b", .int 2)] h1 (by
    intro pv hpv; simp only [List.mem_singleton] at hpv; subst hpv; exact h0 _ (by decide) (by decide))
  have h3 := Reach.deleted (.str p!"c") h2 (by
    intro ns ha
    rw [addr_unique ha ⟨[slash], p!"c", by decide, rfl⟩]; decide)
  exact h3

theorem ex_map_names (k : Str) (hk : Exists exMap.st.heap [k]) (hr : k ≠ p!"#refs#") : k = p!"a" ∨ k = p!"b" := by
  rw [exists_root, ex_map_keys] at hk
  simp only [List.mem_cons, List.not_mem_nil, or_false] at hk
  rcases hk with h | h
  · exact absurd h hr
  · exact h

theorem ex_map_entries : Entries exX 10 exMap p!"#refs#" := by
  refine ⟨fun k hk hr => ?_, fun k hk hr => ?_⟩
  · rcases ex_map_names k hk hr with rfl | rfl <;> exact ⟨by unfold IsName; decide, by decide⟩
  · rcases ex_map_names k hk hr with rfl | rfl
    · exact ⟨.seq .list [.int 1], eq_of_isVal (by decide +kernel)⟩
    · exact ⟨.int 2, eq_of_isVal (by decide +kernel)⟩

-- The hypotheses of the theorems hold of a file with a list and a number and the references Group.
example : Reach exX exMap ∧ exMap.isOpen = true ∧ exMap.ro = false ∧ exMap.writable = true ∧ Entries exX 10 exMap p!"#refs#" ∧ exX.o.refsPath = slash :: p!"#refs#" ∧
    IsName p!"#refs#" ∧ NamesOk exX.o :=
  ⟨ex_map_reach, by decide +kernel, by decide +kernel, by decide +kernel, ex_map_entries, rfl, (by unfold IsName; decide), Spec.RtOpts.names ex_rtOpts⟩
-- They are popped one after the other.
example : ((mapClear exX 10 5 exMap).map fun r => (raised r.1, akeys (linksOf r.2.st.heap 0))) = some (none, [p!"#refs#"]) := by decide +kernel
example : (mapItems exX 10 exMap).toOption.map (·.map (·.1)) = some [p!"a", p!"b"] := by decide +kernel
-- Reading a place where nothing is, and updating.
example : GoodPath exX.o (.str p!"u/v") ∧ Addr (.str p!"u/v") [p!"u", p!"v"] ∧ [p!"u", p!"v"].all nameOk = true ∧
    raised (mapPop exX 10 (.str p!"u/v") none exMap).1 = some .keyError := by
  have ha : Addr (.str p!"u/v") [p!"u", p!"v"] := ⟨p!"u", p!"v", by decide, by decide⟩
  refine ⟨⟨_, ha, fun k hk => ?_⟩, ha, by decide, by decide +kernel⟩
  cases hk; decide
example : BadPath exX.o (.str p!"/#refs#/a") := Or.inr ⟨[p!"#refs#", p!"a"], ⟨p!"/#refs#", p!"a", by decide, by decide⟩, by decide⟩

/-- F7: after a list was written to `!x` the names yielded include the references Group, so `items` raises. -/
theorem C64_counterexample : fileLen exX (fileOps exX 10 [.write (.str p!"!x") (.seq .list [.int 1])] exF).2 = .ok 1 ∧
    raised (mapItems exX 10 (fileOps exX 10 [.write (.str p!"!x") (.seq .list [.int 1])] exF).2) = some .valueError := by
  decide +kernel

/-- F54: a `KeyError` raised while reading something that is there is taken for its absence: a slice one part of which was deleted is in the file, but `get` gives the
default, and `clear` leaves it and everything after it without an exception. -/
theorem C64_counterexample_keyError :
    let F := (fileOps exX 10 [.write (.str p!"s") (.record .slice [.int 1, .int 2, .int 3]), .write (.str p!"t") (.int 1), .del (.str p!"s/start")] exF).2
    fileContains (.str p!"s") F = .ok true ∧ mapGet exX 10 (.str p!"s") .none F = .ok .none ∧
    ((mapClear exX 10 5 F).map fun r => (raised r.1, fileLen exX r.2)) = some (none, .ok 2) := by
  exact ⟨by decide +kernel, eq_of_isVal (by decide +kernel), by decide +kernel⟩

end HS
