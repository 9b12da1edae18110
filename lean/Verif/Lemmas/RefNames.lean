import Verif.Spec.Refs
import Verif.Lemmas.FileRt
import Verif.Lemmas.FileApi
/-
The names for references over histories.
-/
namespace HS
open Spec

/-- A name that was returned. -/
structure Given (s : St) (nm : Str) : Prop where
  nd : nm ≠ [dot]
  na : nm ≠ p!"a"
  known : s.refs ≠ none
  ctr : s.created = true → ∃ c, c < s.counter ∧ nm = hexStr c

theorem Given.step {x : Ctx} {A D} {s s' : St} {nm : Str} (g : Given s nm) (st : Step x A D s s') : Given s' nm := by
  obtain ⟨r, hr⟩ := Option.ne_none_iff_exists'.mp g.known
  obtain ⟨h1, h2⟩ := st.fr.refs r hr
  refine ⟨g.nd, g.na, by rw [h1]; simp, fun hc => ?_⟩
  obtain ⟨c, h3, h4⟩ := g.ctr (by rw [← h2]; exact hc)
  exact ⟨c, Nat.lt_of_lt_of_le h3 st.fr.counter, h4⟩

theorem Given.reserved {s : St} {nm : Str} (g : Given s nm) (r : Nat) : Reserved s r nm := by
  intro hc _ c hcc he
  obtain ⟨c', h1, h2⟩ := g.ctr hc
  have := hexStr_inj (h2.symm.trans he)
  omega

theorem given_next {x : Ctx} {s s' : St} {nm : Str} (hi : Inv x s) (hr : s.refs ≠ none) (h : nextName x s = (.ok nm, s')) :
    Step x noA noD s s' ∧ Given s' nm ∧ (∀ r q, s.refs = some r → ¬ LinkAt s'.heap r nm q) ∧ (s.created = true → nm = hexStr s.counter) := by
  obtain ⟨r, hr⟩ := Option.ne_none_iff_exists'.mp hr
  obtain ⟨st, hn⟩ := nextName_spec hi hr h
  obtain ⟨n1, n2, n3, n4⟩ := hn nm rfl
  have hr' := st.keepRefs hr
  refine ⟨st, ⟨n1, ?_, by rw [hr']; simp, ?_⟩, ?_, ?_⟩
  · intro ha
    rcases n4 with ⟨_, a1, _⟩ | ⟨_, i, _, _, b⟩
    · have := hexStr_a (ha.symm.trans a1)
      have := hi.ctr
      omega
    · exact randName_ne_a x i (b.symm.trans ha)
  · intro hc
    rcases n4 with ⟨_, a1, a2, _⟩ | ⟨b, _⟩
    · exact ⟨s.counter, by omega, a1⟩
    · rw [(st.fr.refs r hr).2, b] at hc; cases hc
  · intro r' q hr2
    rw [hr] at hr2
    cases hr2
    exact n3 q
  · intro hc
    rcases n4 with ⟨_, a1, _⟩ | ⟨b, _⟩
    · exact a1
    · rw [hc] at b; cases b

theorem given_pre {x : Ctx} {s : St} {nm : Str} {r : Nat} (hi : Inv x s) (hr : s.refs = some r) (g : Given s nm) : Pre x s r nm := by
  have hres := (hi.refs r hr).1
  exact ⟨hi, resolve_lt hi _ (plainComps x) r hres, g.nd, offPath_refs hi hres nm, g.reserved r, fun q hq p hp => hi.below r nm q p hres hq hp⟩

theorem hist_keep {x : Ctx} (hr : RefsPathOk x.o) (hn : NamesOk x.o) {s : St} {l : List Str} (h : Hist x s l) : Inv x s ∧ Tree s.heap ∧ ∀ nm ∈ l, Given s nm := by
  induction h with
  | file hF => exact ⟨(reach_keep hr hn hF).1, (reach_keep hr hn hF).2, fun _ h => by cases h⟩
  | next _ hrf hnx ih =>
    obtain ⟨hi, ht, hg⟩ := ih
    obtain ⟨st, g, _⟩ := given_next hi hrf hnx
    refine ⟨st.inv, tree_step ht st (fun h => h), fun nm hnm => ?_⟩
    rcases List.mem_cons.mp hnm with rfl | h
    · exact g
    · exact (hg nm h).step st
  | failed _ hrf hnx ih =>
    obtain ⟨hi, ht, hg⟩ := ih
    obtain ⟨r, hr⟩ := Option.ne_none_iff_exists'.mp hrf
    have st := (nextName_spec hi hr hnx).1
    exact ⟨st.inv, tree_step ht st (fun h => h), fun nm hnm => (hg nm hnm).step st⟩
  | @write s l nm r n v _ hnm hrf ih =>
    obtain ⟨hi, ht, hg⟩ := ih
    have po := writeData_post hn.keys hn.vals n s r (refsName x.o) nm v _ _ (given_pre hi hrf (hg _ hnm)) (run_eta (writeData x n r (refsName x.o) nm v) s)
    exact ⟨po.step.inv, tree_step ht po.step (tgt_root ht), fun nm hnm => (hg nm hnm).step po.step⟩
  | @objects s l n vs _ ih =>
    obtain ⟨hi, ht, hg⟩ := ih
    have st := writeObjectArray_step (vs := vs) (writeData_post hn.keys hn.vals n) hi (run_eta (writeObjectArray x (writeData x n) vs) s)
    exact ⟨st.inv, tree_step ht st (fun h => h), fun nm hnm => (hg nm hnm).step st⟩

/-- The loop that draws names changes nothing but the position in the stream of random numbers. -/
theorem drawName_unused {x : Ctx} {r n : Nat} {s s' : St} {nm : Str} (h : drawName x r n s = (.ok nm, s')) :
    s'.heap = s.heap ∧ s'.refs = s.refs ∧ hlook s'.heap r nm = none ∧ ∃ i, nm = randName x i := by
  induction n generalizing s with
  | zero => cases h
  | succ n ih =>
    rw [drawName] at h
    rw [run_getSt, run_modSt] at h
    cases hl : hlook s.heap r (randName x s.rpos) with
    | none =>
      rw [hl, if_neg (by simp), run_pure] at h
      cases h
      exact ⟨rfl, rfl, hl, _, rfl⟩
    | some q =>
      rw [hl, if_pos (by simp)] at h
      obtain ⟨h1, h2, h3, h4⟩ := ih h
      exact ⟨h1, h2, h3, h4⟩

theorem nextName_first {x : Ctx} {s : St} (h : s.created = false) :
    nextName x s = (ensureRefs x >>= fun r => ensureCanon r >>= fun _ => drawName x r x.hang) s := by
  unfold nextName
  change (if s.created then _ else _ : M Str) s = _
  rw [h]
  rfl

theorem exists_refs {x : Ctx} {s : St} {r : Nat} (hi : Inv x s) (ht : Tree s.heap) (hr : s.refs = some r) (nm : Str) :
    Exists s.heap (hdf5Names x.o.refsPath ++ [nm]) ↔ ∃ q, LinkAt s.heap r nm q := by
  have hl : LPath s.heap (hdf5Names x.o.refsPath) r := lpath_resolve (plainComps x) (hi.refs r hr).1
  constructor
  · rintro ⟨q, hq⟩
    obtain ⟨p, h1, h2⟩ := lpath_snoc hq
    exact ⟨q, by rw [← lpath_fun h1 hl]; exact h2⟩
  · rintro ⟨q, hq⟩
    exact ⟨q, .snoc hl hq⟩

end HS
