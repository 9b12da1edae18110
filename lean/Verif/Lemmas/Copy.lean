import Verif.Props.Mapping
import Verif.Props.Progress
import Verif.Spec.Copy
/-
Lemmas for writing several variables and copying one file into another.
-/
namespace HS
open Spec

theorem rootWay {h : Heap} (hg : isGroup h 0 = true) (k : Str) : WayFree h [k] := by
  intro l q hl hne hq
  obtain ⟨t, ht⟩ := hl
  cases l with
  | nil => rw [lpath_nil hq]; exact hg
  | cons a l =>
    simp only [List.cons_append, List.cons.injEq, List.append_eq_nil_iff] at ht
    obtain ⟨rfl, rfl, _⟩ := ht
    exact absurd rfl hne

theorem Spec.Receives.refsOk {x : Ctx} {F : FileS} {r : Str} (h : Receives x F r) : RefsPathOk x.o := refs_one h.refs h.refsName

theorem Spec.Receives.canWrite {x : Ctx} {F : FileS} {r : Str} (h : Receives x F r) (hn : NamesOk x.o) {k : Str} {v : Val} (hk : Variable x.o r k v) :
    CanWrite x F (.str k) [k] v := by
  have hrc : hdf5Names x.o.refsPath = [r] := by rw [h.refs, refs_name h.refsName]
  obtain ⟨hi, ht⟩ := reach_keep h.refsOk hn h.reach
  refine ⟨h.refsOk, h.reach, h.isOpen, h.rw, addr_name hk.name hk.notUp, by simp, ?_, ?_, ?_, h.over, rootWay ?_ k, ?_, ?_, h.classes, hn⟩
  · rw [hrc]; simpa using hk.notRefs
  · simpa using hk.text
  · simpa using hk.ascii
  · exact ht.root
  · rw [hrc]; exact rootWay ht.root r
  · rw [hrc]; simpa using h.refsText

theorem Spec.Receives.step {x : Ctx} {F : FileS} {r : Str} (h : Receives x F r) (hn : NamesOk x.o) {k : Str} {v : Val} (hk : Variable x.o r k v) {n : Nat}
    (hg : WrGo x (writeData x n) v) :
    ∃ F', fileWrite x n (.str k) v F = (.ok (), F') ∧ Receives x F' r ∧ F'.st.rpos = F.st.rpos := by
  have hc := h.canWrite hn hk
  rcases canWrite_go hc hg with ⟨h1, h2, h3⟩ | ⟨_, _, h1⟩
  · have hs := fileWrites_same x n [(.str k, v)] F
    have hR : Reach x (fileWrite x n (.str k) v F).2 := .wrote n [(.str k, v)] h.reach (by
      intro pv hpv ha
      rw [List.mem_singleton.mp hpv] at ha
      have := addr_unique ha hc.addr
      cases this)
    exact ⟨_, pair_of_fst h1, ⟨h.refs, h.refsName, h.refsText, hR, hs.1.trans h.isOpen, hs.2.2.trans h.rw, h.over, h3, (h2 h.own).1⟩, (h2 h.own).2⟩
  · exact absurd h.own h1

theorem Spec.Receives.steps {x : Ctx} (hn : NamesOk x.o) {n : Nat} {r : Str} {items : List (Str × Val)} (hg : ∀ kv ∈ items, WrGo x (writeData x n) kv.2) {F : FileS}
    (h : Receives x F r) (hk : ∀ kv ∈ items, Variable x.o r kv.1 kv.2) :
    ∃ F', mapUpdate x n (items.map fun kv => (.str kv.1, kv.2)) F = (.ok (), F') ∧ Receives x F' r ∧ F'.st.rpos = F.st.rpos := by
  induction items generalizing F with
  | nil => exact ⟨F, rfl, h, rfl⟩
  | cons kv items ih =>
    obtain ⟨F1, h1, h2, h3⟩ := h.step hn (hk kv (by simp)) (hg kv (by simp))
    obtain ⟨F2, h4, h5, h6⟩ := ih (fun q hq => hg q (by simp [hq])) h2 (fun q hq => hk q (by simp [hq]))
    refine ⟨F2, ?_, h5, h6.trans h3⟩
    rw [List.map_cons, mapUpdate, h1]
    exact h4

/-- Updating that succeeded, at unused names: everything reads back. -/
theorem updated_reads {x : Ctx} (ho : RtOpts x.o) (hp : RefsPathOk x.o) {n : Nat} {F F' : FileS} (hF : Reach x F) (hO : F.isOpen = true) (hrw : F.ro = false)
    {items : List (Str × Val)} (hk : ∀ kv ∈ items, IsName kv.1 ∧ kv.1 ≠ [dot, dot] ∧ ¬ Exists F.st.heap [kv.1] ∧ Good x.o kv.2) (hd : (items.map (·.1)).Nodup)
    (hgp : ∀ kv ∈ items, GoodPath x.o (.str kv.1))
    (hdr : DistinctDraws x F.st.rpos F'.st.rpos) (h : mapUpdate x n (items.map fun kv => (.str kv.1, kv.2)) F = (.ok (), F')) :
    ∀ kv ∈ items, ReadsBack x n F'.st.heap [kv.1] kv.2 := by
  rw [C64_update hp n (by
    intro pv hpv
    obtain ⟨kv, hkv, rfl⟩ := List.mem_map.mp hpv
    exact hgp kv hkv) hO (reach_writable hF) hrw] at h
  have := C35_several ho hp hF hrw (items := items.map fun kv => (.str kv.1, [kv.1], kv.2)) (n := n) (F' := F') (by
    intro i hi
    obtain ⟨kv, hkv, rfl⟩ := List.mem_map.mp hi
    obtain ⟨a, b, c, d⟩ := hk kv hkv
    exact ⟨addr_name a b, by simp, c, d⟩) (by
    rw [List.pairwise_map]
    rw [List.Nodup, List.pairwise_map] at hd
    refine hd.imp ?_
    intro a b hab
    refine ⟨?_, ?_⟩
    · rintro ⟨t, ht⟩; simp at ht; exact hab ht.1
    · rintro ⟨t, ht⟩; simp at ht; exact hab ht.1.symm) hdr (by
    rw [List.map_map]; exact h)
  intro kv hkv
  exact this _ (List.mem_map.mpr ⟨kv, hkv, rfl⟩)

theorem mapCopy_iff {y : Ctx} {m : Nat} {G : FileS} {x : Ctx} {n : Nat} {ks : List Str} {F F' : FileS} :
    mapCopy y m G x n ks F = (.ok (), F') ↔ ∃ l, readNames y m G ks = .ok l ∧ mapUpdate x n (l.map fun kv => (.str kv.1, kv.2)) F = (.ok (), F') := by
  induction ks generalizing F with
  | nil =>
    constructor
    · intro h; exact ⟨[], rfl, h⟩
    · rintro ⟨l, h1, h2⟩; cases h1; exact h2
  | cons k ks ih =>
    rw [mapCopy, readNames]
    cases hv : fileRead y m (.str k) G with
    | error e =>
      constructor
      · intro h; cases h
      · rintro ⟨l, h1, _⟩; cases h1
    | ok v =>
      dsimp only
      cases hw : fileWrite x n (.str k) v F with
      | mk res F1 =>
      cases res with
      | error e =>
        constructor
        · intro h; cases h
        · rintro ⟨l, h1, h2⟩
          obtain ⟨v', e1, h1⟩ := res_bind_ok.mp h1
          cases e1
          obtain ⟨l', _, h1⟩ := res_bind_ok.mp h1
          cases h1
          rw [List.map_cons, mapUpdate, hw] at h2
          cases h2
      | ok u =>
        dsimp only
        rw [ih]
        constructor
        · rintro ⟨l, h1, h2⟩
          refine ⟨(k, v) :: l, res_bind_ok.mpr ⟨v, rfl, res_bind_ok.mpr ⟨l, h1, rfl⟩⟩, ?_⟩
          rw [List.map_cons, mapUpdate, hw]
          exact h2
        · rintro ⟨l, h1, h2⟩
          obtain ⟨v', e1, h1⟩ := res_bind_ok.mp h1
          cases e1
          obtain ⟨l', e2, h1⟩ := res_bind_ok.mp h1
          cases h1
          rw [List.map_cons, mapUpdate, hw] at h2
          exact ⟨l', e2, h2⟩

/-- What copying writes, whether or not it raises something in the end. -/
theorem mapCopy_ops (y : Ctx) (m : Nat) (G : FileS) (x : Ctx) (n : Nat) (ks : List Str) (F : FileS) :
    ∃ ops, (mapCopy y m G x n ks F).2 = (fileOps x n ops F).2 ∧ ∀ op ∈ ops, ∃ k ∈ ks, ∃ v, op = .write (.str k) v := by
  induction ks generalizing F with
  | nil => exact ⟨[], rfl, fun _ h => by cases h⟩
  | cons k ks ih =>
    rw [mapCopy]
    cases hv : fileRead y m (.str k) G with
    | error e => exact ⟨[], rfl, fun _ h => by cases h⟩
    | ok v =>
      dsimp only
      have h1 : (fileOp x n (.write (.str k) v) F).2 = (fileWrite x n (.str k) v F).2 := rfl
      cases hw : fileWrite x n (.str k) v F with
      | mk res F1 =>
      rw [hw] at h1
      cases res with
      | error e =>
        refine ⟨[.write (.str k) v], ?_, fun op h => ⟨k, by simp, v, List.mem_singleton.mp h⟩⟩
        exact h1.symm
      | ok u =>
        obtain ⟨ops, h2, h3⟩ := ih F1
        refine ⟨.write (.str k) v :: ops, ?_, ?_⟩
        · rw [fileOps, h1]; exact h2
        · intro op hop
          rcases List.mem_cons.mp hop with rfl | hop
          · exact ⟨k, by simp, v, rfl⟩
          · obtain ⟨k', hk', e⟩ := h3 op hop
            exact ⟨k', by simp [hk'], e⟩

/-- The names copying goes through. -/
theorem iter_lists {y : Ctx} {r : Str} (hr : y.o.refsPath = slash :: r) (hrn : IsName r) {G : FileS} (ho : G.isOpen = true) (hd : DistinctNames G.st.heap)
    (hs : ∀ k, Exists G.st.heap [k] → k ≠ r → strLt r k = true) : ∃ ks, ListsRoot G.st.heap (some r) ks ∧ fileIter y G = .ok ks := by
  obtain ⟨ks, h1, h2⟩ := C38_iter_partial hr hrn G.st.heap hd false 0 [] rfl hs
  refine ⟨ks, h1, ?_⟩
  rw [← h2]
  unfold fileIter
  rw [ho]
  rfl

theorem iter_mem {y : Ctx} {G : FileS} {ks : List Str} (h : fileIter y G = .ok ks) : ∀ k ∈ ks, Exists G.st.heap [k] := by
  intro k hk
  unfold fileIter at h
  split at h
  · cases h
  · rw [exists_root, ← (sortStr_perm _).mem_iff]
    split at h
    · cases h
      exact (List.dropWhile_sublist _).mem hk
    · cases h
      exact hk

theorem goodPath_name {o : COpts} {k : Str} (h1 : IsName k) (h2 : k ≠ [dot, dot]) (h3 : (hdf5Names o.refsPath).head? ≠ some k) : GoodPath o (.str k) :=
  ⟨[k], addr_name h1 h2, fun _ h => by cases h; exact h3⟩

theorem Spec.CanWrite.goodPath {x : Ctx} {F : FileS} {p : PathArg} {ns : List Str} {v : Val} (h : CanWrite x F p ns v) : GoodPath x.o p :=
  ⟨ns, h.addr, fun _ hk e => h.off (by rw [hk, e])⟩

theorem readNames_ok {x : Ctx} {n : Nat} {F : FileS} {ks : List Str} (h : ∀ k ∈ ks, ∃ v, fileRead x n (.str k) F = .ok v) : ∃ l, readNames x n F ks = .ok l := by
  induction ks with
  | nil => exact ⟨[], rfl⟩
  | cons k ks ih =>
    obtain ⟨v, hv⟩ := h k (by simp)
    obtain ⟨l, hl⟩ := ih fun k' hk' => h k' (by simp [hk'])
    exact ⟨(k, v) :: l, by rw [readNames, hv]; exact res_bind_ok.mpr ⟨v, rfl, res_bind_ok.mpr ⟨l, hl, rfl⟩⟩⟩

end HS
