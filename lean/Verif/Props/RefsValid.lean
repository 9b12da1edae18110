import Verif.Lemmas.RefsFile
import Verif.Lemmas.Mat
import Verif.Props.Refs
/-
C58: stored references stay valid.
-/
namespace HS
open Spec

/-- C58. Open any file whose references all lead to the references Group and use it in any way, writing, overwriting and deleting, with one call or many,
successful or not, closing it and opening it again with other options: at every point every reference in every Dataset of the file leads to an object in the
references Group, so nothing that is still referred to is ever removed from it or replaced. -/
theorem C58_valid {o : COpts} (hr : RefsPathOk o) {h0 : Heap} (ht : Tree h0) (hv : ValidRefs o h0) (ha : CanonAtA o h0) {x : Ctx} {F : FileS} (h : UsedFrom o h0 x F) :
    ValidRefs o F.st.heap := used_valid hr ht hv ha h

theorem empty_lpath {l : List Str} {p : Nat} (h : LPath emptyHeap l p) : l = [] ∧ p = 0 := by
  cases h with
  | root => exact ⟨rfl, rfl⟩
  | snoc _ hl => exact (linkAt_single hl).elim

theorem empty_valid (o : COpts) : ValidRefs o emptyHeap := by
  intro ns p at' a f r h1 h2
  obtain ⟨_, rfl⟩ := empty_lpath h1
  cases h2

theorem empty_canon (o : COpts) : CanonAtA o emptyHeap := by
  intro q h
  have := (empty_lpath h).1
  simp at this

/-- C58. In a file made by this package: nothing has to be known about what is in it. -/
theorem C58_new_file {o : COpts} (hr : RefsPathOk o) {x : Ctx} {F : FileS} (h : UsedFrom o emptyHeap x F) : ValidRefs o F.st.heap :=
  C58_valid hr tree_empty (empty_valid o) (empty_canon o) h

/-- A list of lists in a new file, overwritten with a dict of lists, after opening the file again. -/
def exNested : Val := .seq .list [.seq .list [.int 1, .str p!"b"], .none]
def exUsed1 : FileS := (fileWrites exX 10 [(.str p!"/x", exNested)] exF).2
def exUsed2 : FileS := (fileWrites exX 10 [(.str p!"/x", .dict .dict [.str p!"k"] [exNested])] (FileS.new exUsed1.st.heap true)).2

theorem ex_addr_x {p : PathArg × Val} {v : Val} (h : p ∈ [(PathArg.str p!"/x", v)]) : ¬ Addr p.1 [] := by
  simp only [List.mem_singleton] at h
  subst h
  show ¬ Addr (PathArg.str p!"/x") []
  intro ha
  have := addr_unique ha ⟨p!"/", p!"x", by decide, rfl⟩
  revert this; decide

theorem ex_nested_refs : ¬ HasRefArray exNested := by
  intro h
  cases h with
  | seq _ _ e he h =>
    simp only [List.mem_cons, List.not_mem_nil, or_false] at he
    rcases he with rfl | rfl
    · cases h with
      | seq _ _ e he h =>
        simp only [List.mem_cons, List.not_mem_nil, or_false] at he
        rcases he with rfl | rfl <;> cases h
    · cases h

theorem ex_used1 : UsedFrom exX.o emptyHeap exX exUsed1 := by
  refine .wrote 10 [(.str p!"/x", exNested)] (.opened exX true rfl ex_rtOpts.names) (fun pv h => ex_addr_x h) ?_ ?_
  · intro pv h
    simp only [List.mem_singleton] at h
    subst h
    exact ex_nested_refs
  · intro i j _ h2 h3
    have : (fileWrites exX 10 [(.str p!"/x", exNested)] exF).2.st.rpos = 0 := by decide +kernel
    omega

theorem ex_used2 : UsedFrom exX.o emptyHeap exX exUsed2 := by
  refine .wrote 10 _ (.reopened exX exX true ex_used1 rfl ex_rtOpts.names) (fun pv h => ex_addr_x h) ?_ ?_
  · intro pv h
    simp only [List.mem_singleton] at h
    subst h
    intro h
    cases h with
    | key _ _ _ e he h =>
      simp only [List.mem_singleton] at he
      subst he; cases h
    | val _ _ _ e he h =>
      simp only [List.mem_singleton] at he
      subst he; exact ex_nested_refs h
  · have h0 : (FileS.new exUsed1.st.heap true).st.rpos = 0 := rfl
    have h1 : exUsed2.st.rpos = 4 := by decide +kernel
    intro i j _ h2 h3
    change j < exUsed2.st.rpos at h3
    rw [h1] at h3
    have key : ∀ j < 4, ∀ i < j, exX.rng i % 2 ^ 64 ≠ exX.rng j % 2 ^ 64 := by decide
    exact key j h3 i h2

/-- The number of references in the Datasets. -/
def exCountRefs (h : Heap) : Nat := (h.map fun ob => match ob.body with
  | .dset a _ => if a.dt = .ref then a.data.length else 0
  | .group _ => 0).sum

example : UsedFrom exX.o emptyHeap exX exUsed2 ∧ RefsPathOk exX.o ∧ exCountRefs exUsed2.st.heap = 8 ∧ ValidRefs exX.o exUsed2.st.heap :=
  ⟨ex_used2, ⟨rfl, by decide⟩, by decide +kernel, C58_new_file ⟨rfl, by decide⟩ ex_used2⟩

/-- C58. So what is stored at any place of a file in use consists of objects of its own and objects in the references Group. -/
theorem C58_self_contained {o : COpts} {h : Heap} (hr : RefsPathOk o) (ht : Tree h) (hv : ValidRefs o h) (ns : List Str) : SelfContained o h ns := by
  intro q p hq hp
  have key : (∃ l, LPath h (ns ++ l) p) ∨ ∃ nm l, LPath h (hdf5Names o.refsPath ++ nm :: l) p := by
    induction hp with
    | refl => exact Or.inl ⟨[], by simpa using hq⟩
    | @step p r ob _ ho hh ih =>
      obtain ⟨at', b⟩ := ob
      cases b with
      | dset a f =>
        have : ∃ l, LPath h l p := by
          rcases ih with ⟨l, hl⟩ | ⟨nm, l, hl⟩
          · exact ⟨_, hl⟩
          · exact ⟨_, hl⟩
        obtain ⟨l, hl⟩ := this
        obtain ⟨nm, hnm⟩ := hv l p at' a f r hl ho hh.1 hh.2
        exact Or.inr ⟨nm, [], hnm⟩
      | group g =>
        obtain ⟨k, hk⟩ := hh
        have hlk : LinkAt h p k r := by
          unfold LinkAt linksOf
          rw [ho]; exact hk
        rcases ih with ⟨l, hl⟩ | ⟨nm, l, hl⟩
        · exact Or.inl ⟨l ++ [k], by rw [← List.append_assoc]; exact .snoc hl hlk⟩
        · exact Or.inr ⟨nm, l ++ [k], by simpa using LPath.snoc hl hlk⟩
  rcases key with ⟨l, hl⟩ | ⟨nm, l, hl⟩
  · refine ⟨lpath_lt ht hl, fun l' hl' => Or.inl ?_⟩
    rw [hl'.unique ht hl]
    exact List.prefix_append _ _
  · refine ⟨lpath_lt ht hl, fun l' hl' => Or.inr ?_⟩
    rw [hl'.unique ht hl]
    exact ⟨List.prefix_append _ _, by simp⟩

theorem used_reach {o : COpts} (hr : RefsPathOk o) {h0 : Heap} (ht : Tree h0) (hv : ValidRefs o h0) (ha : CanonAtA o h0) {x : Ctx} {F : FileS} (h : UsedFrom o h0 x F) : Reach x F := by
  induction h with
  | opened x w hx hn => exact .opened h0 w ht
  | reopened x y w hF hy hn ih => exact .opened _ w (used_ri hr ht hv ha hF).2.2.tree
  | wrote n mdict hF hroot hnr hd ih => exact .wrote n mdict ih hroot
  | @deleted x F p hF hoff ih =>
    refine .deleted p ih ?_
    rw [(used_ri hr ht hv ha hF).1]
    exact hoff
  | closed hF ih => exact .closed ih
  | flushed hF ih => exact .flushed ih

/-- C35, C58. For a file in use the proviso of `C35_local` is met: calls that write and delete elsewhere do not change what reading a place gives. -/
theorem C58_reads_same {o : COpts} (hr : RefsPathOk o) {h0 : Heap} (ht : Tree h0) (hv : ValidRefs o h0) (ha : CanonAtA o h0) {x : Ctx} {F : FileS} (h : UsedFrom o h0 x F)
    {n : Nat} {ops : List Op} {q : PathArg} {ms : List Str} (hq : Addr q ms) (hne : ms ≠ []) (hh : ms.head? ≠ (hdf5Names o.refsPath).head?)
    (hel : ∀ op ∈ ops, Elsewhere x.o op ms) (hex : Exists F.st.heap ms) (hopen : (fileOps x n ops F).2.isOpen = true) (m : Nat) :
    fileRead x m q (fileOps x n ops F).2 = fileRead x m q F := by
  obtain ⟨hx, hn, hR⟩ := used_ri hr ht hv ha h
  have hrx : RefsPathOk x.o := ⟨by rw [hx]; exact hr.abs, by rw [hx]; exact hr.notRoot⟩
  have hvx : ValidRefs x.o F.st.heap := by
    have := used_valid hr ht hv ha h
    unfold ValidRefs at this ⊢
    rw [hx]; exact this
  exact (C35_local hrx hn (used_reach hr ht hv ha h) hq hne (by rw [hx]; exact hh) hel).2 (C58_self_contained hrx hR.tree hvx ms) hex hopen m

example : let ops := [Op.write (.str p!"/z") exNested, .del (.str p!"z"), .write (.str p!"/u/v") .other]
    UsedFrom exX.o emptyHeap exX exUsed2 ∧ (∀ op ∈ ops, Elsewhere exX.o op [p!"x"]) ∧ Exists exUsed2.st.heap [p!"x"] ∧ (fileOps exX 10 ops exUsed2).2.isOpen = true ∧
    (fileOps exX 10 ops exUsed2).1.map raised = [none, none, some .notImplemented] ∧ (fileOps exX 10 ops exUsed2).2.st.heap ≠ exUsed2.st.heap := by
  refine ⟨ex_used2, ?_, ?_, by decide +kernel, by decide +kernel, by decide +kernel⟩
  · intro op hop
    simp only [List.mem_cons, List.not_mem_nil, or_false] at hop
    rcases hop with rfl | rfl | rfl
    · exact ex_elsewhere p!"/" p!"z" _ _ (by decide) (by decide)
    · refine fun ns ha => ⟨ex_elsewhere p!"/" p!"z" _ _ (by decide) (by decide) ns ha, ?_⟩
      rw [addr_unique ha ⟨p!"/", p!"z", by decide, rfl⟩]; decide
    · exact ex_elsewhere p!"/u" p!"v" _ _ (by decide) (by decide)
  · obtain ⟨q, hq⟩ := Option.isSome_iff_exists.mp (show (resolve exUsed2.st.heap 0 [p!"x"]).isSome = true by decide +kernel)
    exact ⟨q, lpath_resolve (by intro c hc; simp only [List.mem_singleton] at hc; subst hc; decide) hq⟩

/-- There is a reference at the place that leads to nothing in the references Group, as a program for examples. -/
def exDangling (o : COpts) (h : Heap) (ns : List Str) : Bool :=
  match resolve h 0 ns with
  | none => false
  | some p => match h[p]? with
    | some ⟨_, .dset a _⟩ => a.dt == .ref && a.data.any fun e => match e with
      | .ref r => match resolve h 0 (hdf5Names o.refsPath) with
        | none => true
        | some rg => (linksOf h rg).all fun l => !(l.2 == r)
      | _ => false
    | _ => false

theorem not_valid {o : COpts} {h : Heap} {ns : List Str} (hp : PlainNames ns) (hd : exDangling o h ns = true) : ¬ ValidRefs o h := by
  intro hv
  unfold exDangling at hd
  split at hd
  · cases hd
  rename_i p hp1
  split at hd
  · rename_i at' a f hp2
    rw [Bool.and_eq_true, List.any_eq_true] at hd
    obtain ⟨h1, e, h2, h3⟩ := hd
    split at h3
    · rename_i r
      obtain ⟨nm, hnm⟩ := hv ns p at' a f r (lpath_resolve hp hp1) hp2 (by simpa using h1) h2
      obtain ⟨rg, h4, h5⟩ := lpath_snoc hnm
      have h4' : resolve h 0 (hdf5Names o.refsPath) = some rg := resolve_lpath (commonComps_plain o.refsPath) h4
      rw [h4'] at h3
      dsimp only at h3
      rw [List.all_eq_true] at h3
      have := h3 _ (aget_mem _ _ _ h5)
      simp at this
    · cases h3
  · cases hd

/-- F32: `del f['/#refs#']` is not refused, and leaves the references dangling. -/
theorem C58_counterexample_delete : ∃ F p, UsedFrom exX.o emptyHeap exX F ∧ (fileDel p F).1 = .ok () ∧ ¬ ValidRefs exX.o (fileDel p F).2.st.heap :=
  ⟨exUsed1, .str p!"/#refs#", ex_used1, by decide +kernel, not_valid (ns := [p!"x"]) (by intro c hc; simp only [List.mem_singleton] at hc; subst hc; decide) (by decide +kernel)⟩

/-- F21: if the random numbers repeat, the elements of a list in a list get the same name, and the inner ones are lost. -/
theorem C58_counterexample_draws : ∃ F p v, UsedFrom exX.o emptyHeap exRep F ∧ ¬ HasRefArray v ∧ (fileWrite exRep 10 p v F).1 = .ok () ∧
    ¬ ValidRefs exX.o (fileWrite exRep 10 p v F).2.st.heap :=
  ⟨FileS.new exUsed1.st.heap true, .str p!"/y", .seq .list [.seq .list [.int 1]], .reopened exX exRep true ex_used1 rfl ex_rtOpts.names, (by
      intro h
      cases h with
      | seq _ _ e he h =>
        simp only [List.mem_singleton] at he
        subst he
        cases h with
        | seq _ _ e he h =>
          simp only [List.mem_singleton] at he
          subst he; cases h), by decide +kernel,
    not_valid (ns := [p!"#refs#", p!"0000000000000007"]) (by intro c hc; simp only [List.mem_cons, List.not_mem_nil, or_false] at hc; rcases hc with rfl | rfl <;> decide) (by decide +kernel)⟩

/-- A file where the object with the name 'a' in the references Group is an array that something refers to. -/
def exForeignA : Heap := [⟨[], .group [(p!"#refs#", 1), (p!"c", 3)]⟩, ⟨[], .group [(p!"a", 2)]⟩, ⟨[], .dset ⟨.i64, [1], [.num 5]⟩ ⟨none, some none, false, false, false⟩⟩,
  ⟨[], .dset ⟨.ref, [1], [.ref 2]⟩ ⟨none, some none, false, false, false⟩⟩]

theorem ex_foreign_links {p : Nat} {k : Str} {q : Nat} (h : LinkAt exForeignA p k q) : (p, k, q) ∈ [(0, p!"#refs#", 1), (0, p!"c", 3), (1, p!"a", 2)] := by
  unfold LinkAt at h
  have h := aget_mem _ _ _ h
  match p with
  | 0 =>
    change _ ∈ [_, _] at h
    simp only [List.mem_cons, Prod.mk.injEq, List.not_mem_nil, or_false] at h ⊢
    rcases h with ⟨rfl, rfl⟩ | ⟨rfl, rfl⟩ <;> simp
  | 1 =>
    change _ ∈ [_] at h
    simp only [List.mem_cons, Prod.mk.injEq, List.not_mem_nil, or_false] at h ⊢
    obtain ⟨rfl, rfl⟩ := h
    simp
  | 2 => cases h
  | 3 => cases h
  | p + 4 => cases h

/-- F45: in a file where the object with the name 'a' in the references Group is not a canonical empty, writing a list anywhere replaces it, also if something
refers to it. -/
theorem C58_counterexample_a : Tree exForeignA ∧ ValidRefs exX.o exForeignA ∧ (fileWrite exX 10 (.str p!"/y") (.seq .list [.int 1]) (FileS.new exForeignA true)).1 = .ok () ∧
    ¬ ValidRefs exX.o (fileWrite exX 10 (.str p!"/y") (.seq .list [.int 1]) (FileS.new exForeignA true)).2.st.heap := by
  refine ⟨?_, ?_, by decide +kernel, not_valid (ns := [p!"c"]) (by intro c hc; simp only [List.mem_singleton] at hc; subst hc; decide) (by decide +kernel)⟩
  · refine ⟨?_, rfl, ?_, ?_⟩
    · intro p k q h
      have := ex_foreign_links h
      simp only [List.mem_cons, Prod.mk.injEq, List.not_mem_nil, or_false] at this
      show q < 4
      omega
    · intro p k h
      have := ex_foreign_links h
      simp only [List.mem_cons, Prod.mk.injEq, List.not_mem_nil, or_false] at this
      omega
    · intro p1 k1 p2 k2 q h1 h2
      have a := ex_foreign_links h1
      have b := ex_foreign_links h2
      simp only [List.mem_cons, Prod.mk.injEq, List.not_mem_nil, or_false] at a b
      rcases a with ⟨rfl, rfl, rfl⟩ | ⟨rfl, rfl, rfl⟩ | ⟨rfl, rfl, rfl⟩ <;> rcases b with ⟨rfl, rfl, b⟩ | ⟨rfl, rfl, b⟩ | ⟨rfl, rfl, b⟩ <;>
        first | exact ⟨rfl, rfl⟩ | cases b
  · intro ns p at' a f r _ h2 h3 h4
    have hl : LPath exForeignA (hdf5Names exX.o.refsPath ++ [p!"a"]) 2 := .snoc (.snoc .root (show LinkAt exForeignA 0 p!"#refs#" 1 by unfold LinkAt; decide)) (by unfold LinkAt; decide)
    match p with
    | 0 => cases h2
    | 1 => cases h2
    | 2 => cases h2; cases h3
    | 3 =>
      cases h2
      simp only [List.mem_singleton] at h4
      cases h4
      exact ⟨_, hl⟩
    | p + 4 => cases h2

end HS
