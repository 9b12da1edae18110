import Verif.Lemmas.RefElems
import Verif.Lemmas.RtAll
import Verif.Props.RoundTrip
import Verif.Props.Local
/-
Properties of the references Group: C17 (names) and C18 (object arrays).
-/
namespace HS
open Spec

/-- C17. After any history of calls, on a file with any content and for any random stream, the name returned is not in use in the references Group and is not the
name of the canonical empty; and it is different from every name returned before that has been used since, and, if this `File` made the references Group, from
every name returned before.  (Finding F21: otherwise a name that was returned but not used yet may be returned again, see `C17_counterexample`.) -/
theorem C17_unused {x : Ctx} (hr : RefsPathOk x.o) (hn : NamesOk x.o) {s s' : St} {l : List Str} {nm : Str} (h : Hist x s l) (hk : s.refs ≠ none)
    (hnx : nextName x s = (.ok nm, s')) :
    ¬ Exists s'.heap (hdf5Names x.o.refsPath ++ [nm]) ∧ nm ≠ p!"a" ∧
      (∀ nm' ∈ l, s.created = true ∨ Exists s'.heap (hdf5Names x.o.refsPath ++ [nm']) → nm' ≠ nm) := by
  obtain ⟨hi, ht, hg⟩ := hist_keep hr hn h
  obtain ⟨st, g, h1, h2⟩ := given_next hi hk hnx
  have ht' := tree_step ht st (fun h => h)
  obtain ⟨r, hrs⟩ := Option.ne_none_iff_exists'.mp hk
  have hno : ¬ Exists s'.heap (hdf5Names x.o.refsPath ++ [nm]) := by
    rw [exists_refs st.inv ht' (st.keepRefs hrs) nm]
    rintro ⟨q, hq⟩
    exact h1 r q hrs hq
  refine ⟨hno, g.na, ?_⟩
  rintro nm' hm hc rfl
  rcases hc with hc | he
  · obtain ⟨c, c1, c2⟩ := (hg nm' hm).ctr hc
    have := hexStr_inj ((h2 hc).symm.trans c2)
    omega
  · exact hno he

/-- A file that this `File` has written an object array to. -/
def exRefs : St := (writeObjectArray exX (writeData exX 5) [.int 1, .str p!"b"] exF.st).2

theorem exRefs_hist : Hist exX exRefs [] := .objects _ _ (.file ex_reach)

example : ∃ s', Hist exX exRefs [] ∧ exRefs.refs ≠ none ∧ RefsPathOk exX.o ∧ NamesOk exX.o ∧ nextName exX exRefs = (.ok p!"d", s') :=
  ⟨_, exRefs_hist, by decide +kernel, ⟨rfl, by decide⟩, ex_rtOpts.names, pair_of_fst (by decide +kernel)⟩

/-- C17. The same for the first name, asked for when this `File` has not yet dealt with the references Group; the Group exists afterwards. -/
theorem C17_first {x : Ctx} (hr : RefsPathOk x.o) (hn : NamesOk x.o) {s s' : St} {l : List Str} {nm : Str} (h : Hist x s l) (hk : s.refs = none)
    (hnx : nextName x s = (.ok nm, s')) :
    Exists s'.heap (hdf5Names x.o.refsPath) ∧ ¬ Exists s'.heap (hdf5Names x.o.refsPath ++ [nm]) ∧ nm ≠ p!"a" := by
  obtain ⟨hi, ht, _⟩ := hist_keep hr hn h
  have hcr : s.created = false := by
    cases hc : s.created with
    | false => rfl
    | true => exact absurd hk (hi.created hc)
  rw [nextName_first hcr] at hnx
  rcases bind_run (ensureRefs x) (fun r => ensureCanon r >>= fun _ => drawName x r x.hang) s with ⟨r, s1, e1, e2⟩ | ⟨e, s1, e1, e2⟩
  · rw [e2] at hnx
    obtain ⟨st, hr1⟩ := ensureRefs_spec hi e1
    have hr1 := hr1 r rfl
    rcases bind_run (ensureCanon r) (fun _ => drawName x r x.hang) s1 with ⟨a, s2, e3, e4⟩ | ⟨e, s2, e3, e4⟩
    · rw [e4] at hnx
      have st2 := ensureCanon_spec st.inv hr1 e3
      have hr2 := st2.keepRefs hr1
      obtain ⟨d1, d2, d3, i, d4⟩ := drawName_unused hnx
      have ht2 := tree_step (tree_step ht st (fun h => h)) st2 (fun h => h)
      have hd : nm ≠ [dot] := by rw [d4]; exact randName_ne_dot x i
      rw [d1]
      refine ⟨⟨r, lpath_resolve (plainComps x) (st2.inv.refs r hr2).1⟩, ?_, by rw [d4]; exact randName_ne_a x i⟩
      rw [exists_refs st2.inv ht2 hr2 nm]
      rintro ⟨q, hq⟩
      rw [d1, hlook_plain _ _ _ hd] at d3
      unfold LinkAt at hq
      rw [d3] at hq; cases hq
    · rw [e4] at hnx; cases hnx
  · rw [e2] at hnx; cases hnx

example : ∃ s', Hist exX exF.st [] ∧ exF.st.refs = none ∧ nextName exX exF.st = (.ok p!"0000000000000000", s') :=
  ⟨_, .file ex_reach, rfl, pair_of_fst (by decide +kernel)⟩

/-- A context whose random numbers repeat. -/
def exRep : Ctx := ⟨exOpts, fun _ => 7, 5⟩

/-- The file of `exRefs` opened again and its references Group looked up. -/
def exRefs2 : St := (writeObjectArray exRep (writeData exRep 5) [] (FileS.new exRefs.heap true).st).2

/-- F21: with a references Group that this `File` did not make, a name that was returned and not used yet may be returned again. -/
theorem C17_counterexample : ∃ s s' nm l, Hist exRep s l ∧ s.refs ≠ none ∧ nm ∈ l ∧ nextName exRep s = (.ok nm, s') := by
  have h0 : Hist exRep exRefs2 [] :=
    .objects _ _ (.file (.opened _ _ (hist_keep (x := exX) ⟨rfl, by decide⟩ ex_rtOpts.names exRefs_hist).2.1))
  have h1 : nextName exRep exRefs2 = (.ok p!"0000000000000007", (nextName exRep exRefs2).2) := pair_of_fst (by decide +kernel)
  have h2 : exRefs2.refs ≠ none := by decide +kernel
  have h3 : nextName exRep (nextName exRep exRefs2).2 = (.ok p!"0000000000000007", (nextName exRep (nextName exRep exRefs2).2).2) := pair_of_fst (by decide +kernel)
  exact ⟨_, _, _, _, .next h0 h2 h1, by decide +kernel, List.mem_cons_self, h3⟩

/-- C18. `write_object_array` on any values, in any state and under any options: there are as many references as elements; the reference for an element that is
discarded is the same object for all, and the other references are to different objects, made by this call.  If this `File` has not dealt with the canonical
empty before, the object for discarded elements is a canonical empty with the name 'a' in the references Group. -/
theorem C18_refs {x : Ctx} (hr : RefsPathOk x.o) (hn : NamesOk x.o) {s s' : St} {names : List Str} (h : Hist x s names) (n : Nat) (vs : List Val) (l : List Nat)
    (hw : writeObjectArray x (writeData x n) vs s = (.ok l, s')) :
    l.length = vs.length ∧ ∃ c, s'.canon = some c ∧
      (s.canon = none → LPath s'.heap (hdf5Names x.o.refsPath ++ [p!"a"]) c ∧ IsCanonicalEmpty s'.heap c) ∧
      (∀ (i : Nat) v, vs[i]? = some v → Discarded x.o v → l[i]? = some c) ∧
      (∀ (i : Nat) v, vs[i]? = some v → ¬ Discarded x.o v → ∃ q, l[i]? = some q ∧ q ≠ c ∧ s.heap.length ≤ q ∧ q < s'.heap.length) ∧
      (∀ (i j q : Nat), i < j → l[i]? = some q → l[j]? = some q → q = c) := by
  obtain ⟨hi, ht, _⟩ := hist_keep hr hn h
  exact writeObjectArray_refs hn hi hw

example : ∃ l s', writeObjectArray { exX with o := { exX.o with action := .discard } } (writeData { exX with o := { exX.o with action := .discard } } 5)
      [.int 1, .np .scalar ⟨.f16, [], [.num 0]⟩, .seq .list [.none], .np .scalar ⟨.f16, [], [.num 0]⟩] exF.st = (.ok l, s') ∧ l = [3, 2, 5, 2] ∧ exF.st.canon = none :=
  ⟨[3, 2, 5, 2], _, pair_of_fst (by decide +kernel), rfl, rfl⟩

/-- C18. If the elements are values that survive a round trip, `read_object_array` on the references, with the file as it is after the call, gives the elements in
order, with any options that do not change how data is read and a recursion limit not smaller than for writing. -/
theorem C18_read {x : Ctx} (ho : RtOpts x.o) (hr : RefsPathOk x.o) {s s' : St} {names : List Str} (h : Hist x s names) (n : Nat) (vs : List Val) (l : List Nat)
    (hg : ∀ v ∈ vs, Good x.o v) (hd : DistinctDraws x s.rpos s'.rpos) (hw : writeObjectArray x (writeData x n) vs s = (.ok l, s')) :
    ∀ ro m shape, (∀ v ∈ vs, ReadableWith x.o ro v) → ro.refsPath = x.o.refsPath → n ≤ m →
      readDset (readData ro (viewOf s'.heap) (exclOf ro s'.heap) m) ⟨.ref, shape, l.map El.ref⟩ = .ok (.obj shape vs) := by
  obtain ⟨hi, ht, _⟩ := hist_keep hr ho.names h
  obtain ⟨h1, _⟩ := writeObjectArray_rt (writeData_post ho.names.keys ho.names.vals n) (writeData_rt ho n) hi hg hd (Nat.le_refl _) hw
  intro ro m shape hro hp hm
  have h2 : All2 (fun v q => readData ro (viewOf s'.heap) (exclOf ro s'.heap) m q = .ok v) vs l := by
    refine all2_mono ?_ (all2_mem h1)
    rintro v q ⟨hv, _, c2⟩
    refine c2 ro _ _ m (hro v hv) (fun _ _ => rfl) ?_ hm
    intro r hr hn
    rw [exclOf, hp] at hr
    exact hn.2.2 ⟨_, List.prefix_refl _, hr⟩
  exact readDset_refs h2 shape

example : ∃ l s', writeObjectArray exX (writeData exX 5) [.int 1, .seq .list [.none]] exRefs = (.ok l, s') ∧ DistinctDraws exX exRefs.rpos s'.rpos ∧
    ∀ v ∈ [Val.int 1, .seq .list [.none]], Good exX.o v := by
  refine ⟨[5, 7], _, pair_of_fst (by decide +kernel), ?_, ?_⟩
  · intro i j h1 h2 h3
    have : (writeObjectArray exX (writeData exX 5) [.int 1, .seq .list [.none]] exRefs).2.rpos = 0 := by decide +kernel
    rw [this] at h3
    omega
  · intro v hv
    rcases List.mem_cons.mp hv with rfl | hv
    · exact .int _
    · rcases List.mem_cons.mp hv with rfl | hv
      · exact .seq _ _ (fun h => by cases h) (fun v hv => by rcases List.mem_cons.mp hv with rfl | hv; exact .none; cases hv)
      · cases hv

end HS
