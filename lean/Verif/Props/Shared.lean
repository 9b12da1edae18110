import Verif.Lemmas.Shared
import Verif.Props.Collection
/-
Options, marshaller collections and open Files as objects.
-/
namespace HS
open Spec

/-- C68. A File opened with an Options object works from then on with the values and the collection that object had at that moment, whatever happens later: assigning to
the object does not reach the File. -/
theorem C68_file_options {s t : Proc} {u : Nat} (hs : ReachProc s) (h : s.step (.openFile (.given u []) true) = (t, .ok ())) :
    ∃ o, UserHas s u o ∧ ∀ l, FileHas (t.run l) s.files.length o := by
  have hi := reachProc_inv hs
  have ht : ProcInv t := by have := (proc_step hi (.openFile (.given u []) true)).1; rw [h] at this; exact this
  rcases fileOpts_run (.given u []) s with ⟨o, ho, hc⟩ | ⟨e, he⟩
  · refine ⟨o, ?_, ?_⟩
    · rcases hc with ⟨u', e, hu⟩ | ⟨kw, mc, e, _⟩
      · cases e; exact hu
      · cases e
    · intro l
      refine file_kept l t ht _ _ ?_
      simp only [Proc.step, ho, if_true, Prod.mk.injEq] at h
      rw [← h.1]
      exact ⟨s.opts.length, by simp, by simp⟩
  · simp [Proc.step, he] at h

/-- C68. A File opened with keywords works from then on with what `Options` makes of them and the collection given or else the default one of that moment. -/
theorem C68_keywords {s t : Proc} {kw : List (Opt × PyVal)} {mc : Option Nat} (hs : ReachProc s) (h : s.step (.openFile (.keywords kw mc) true) = (t, .ok ())) :
    ∃ o, kwOptions kw = .ok o ∧ ∀ l, FileHas (t.run l) s.files.length ⟨o, collOr s mc⟩ := by
  have hi := reachProc_inv hs
  have ht : ProcInv t := by have := (proc_step hi (.openFile (.keywords kw mc) true)).1; rw [h] at this; exact this
  rcases fileOpts_run (.keywords kw mc) s with ⟨o, ho, hc⟩ | ⟨e, he⟩
  · rcases hc with ⟨u', e, hu⟩ | ⟨kw, mc, e, h1, h2⟩
    · cases e
    · cases e
      refine ⟨o.vals, h1, ?_⟩
      intro l
      refine file_kept l t ht _ _ ?_
      simp only [Proc.step, ho, if_true, Prod.mk.injEq] at h
      rw [← h.1]
      refine ⟨s.opts.length, by simp, ?_⟩
      have : o = ⟨o.vals, collOr s mc⟩ := by
        cases o; cases mc <;> simp_all [collOr]
      rw [← this]
      simp
  · simp [Proc.step, he] at h

/-- C68. With an Options object and keywords it is a ValueError, and nothing has happened. -/
theorem C68_both {s : Proc} {u : Nat} {o : OptObj} (kw : List (Opt × PyVal)) (hk : kw ≠ []) (h : UserHas s u o) (b : Bool) :
    s.step (.openFile (.given u kw) b) = (s, .error .valueError) := by
  obtain ⟨i, h1, h2⟩ := h
  have : kw.length ≠ 0 := fun e => hk (List.length_eq_zero_iff.1 e)
  simp [Proc.step, Proc.fileOpts, h1, h2, this]

/-- C68. Different Options objects do not influence each other: only assigning to an object changes it, and then only as the setter says. -/
theorem C68_independent {s : Proc} {u : Nat} {o : OptObj} (hs : ReachProc s) (h : UserHas s u o) :
    (∀ a, NotAssigned u a → UserHas (s.step a).1 u o) ∧ (∀ n v, UserHas (s.step (.setOpt u n v)).1 u ⟨assign o.vals (n, v), o.coll⟩) ∧
    (∀ c, UserHas (s.step (.setColl u (some c))).1 u ⟨o.vals, c⟩) ∧ UserHas (s.step (.setColl u none)).1 u o := by
  have hi := reachProc_inv hs
  obtain ⟨i, h1, h2⟩ := h
  have hlt := (List.getElem?_eq_some_iff.1 h2).1
  refine ⟨?_, ?_, ?_, ?_⟩
  · intro a ha
    have k := (proc_step hi a).2
    refine ⟨i, ref_kept h1 k.user, k.opts i o h2 ?_⟩
    intro u' hu'
    have : u' = u := (List.getElem?_inj (List.getElem?_eq_some_iff.1 hu').1 hi.nodup).1 (hu'.trans h1.symm)
    exact this ▸ ha
  · intro n v
    refine ⟨i, ?_, ?_⟩ <;> simp only [Proc.step, h1, h2, List.getElem?_set_self hlt, Option.getD]
  · intro c
    refine ⟨i, ?_, ?_⟩ <;> simp only [Proc.step, h1, h2, List.getElem?_set_self hlt, Option.getD]
  · refine ⟨i, ?_, ?_⟩ <;> simp only [Proc.step, h1, h2, List.getElem?_set_self hlt, Option.getD]

/-- C68. New Options have the values `Options` makes of the keywords and use the collection given or else the default one of that moment. -/
theorem C68_new {s t : Proc} {kw : List (Opt × PyVal)} {mc : Option Nat} (h : s.step (.newOpts kw mc) = (t, .ok ())) :
    ∃ o, kwOptions kw = .ok o ∧ UserHas t s.user.length ⟨o, collOr s mc⟩ := by
  rcases makeOpts_run kw mc s with ⟨o, h1, h2⟩ | ⟨e, _, h2⟩
  · refine ⟨o, h1, s.opts.length, ?_, ?_⟩
    · simp only [Proc.step, h2, Prod.mk.injEq] at h
      rw [← h.1]; simp
    · simp only [Proc.step, h2, Prod.mk.injEq] at h
      rw [← h.1]
      cases mc <;> simp [collOr]
  · simp [Proc.step, h2] at h

/-- C68. `make_new_default_marshaller_collection` makes a collection nobody has seen before, as its arguments say, the default one, or raises what the constructor raises and
then the default one is what it was. -/
theorem C68_new_default (s : Proc) (a : CollArgs) (k : CState) (r : Res Unit)
    (h : newCollection a.env a.builtin a.eps s.world a.load a.lazy a.priority a.user = (k, r)) :
    (s.step (.newDefault a)).2 = r ∧ (r = .ok () → (s.step (.newDefault a)).1.dflt = s.colls.length ∧ s.colls[s.colls.length]? = none ∧
      (s.step (.newDefault a)).1.colls = s.colls ++ [k.coll]) ∧
    ∀ e, r = .error e → (s.step (.newDefault a)).1.dflt = s.dflt ∧ (s.step (.newDefault a)).1.colls = s.colls := by
  cases r with
  | ok x => simp [Proc.step, Proc.newDefault, Proc.makeColl, h]
  | error e => simp [Proc.step, Proc.newDefault, Proc.makeColl, h]

/-- C68. Nothing else changes the default collection, and existing Options and Files keep theirs. -/
theorem C68_default {s : Proc} (a : PAct) (hs : ReachProc s) :
    ((∀ c, a ≠ .newDefault c) → (s.step a).1.dflt = s.dflt) ∧
    (∀ c, a = .newDefault c → (∀ u o, UserHas s u o → UserHas (s.step a).1 u o) ∧ ∀ f o, FileHas s f o → FileHas (s.step a).1 f o) := by
  constructor
  · intro hne
    cases a with
    | newColl a => rcases makeColl_run a s with ⟨c, w, h⟩ | ⟨e, w, h⟩ <;> simp [Proc.step, h]
    | newDefault a => exact absurd rfl (hne a)
    | coll c o => simp only [Proc.step]; cases s.colls[c]? <;> rfl
    | newOpts kw mc => rcases makeOpts_run kw mc s with ⟨o, _, h⟩ | ⟨e, _, h⟩ <;> simp [Proc.step, h]
    | setOpt u n v =>
      simp only [Proc.step]
      cases s.user[u]? with
      | none => rfl
      | some i => dsimp only; cases s.opts[i]? <;> rfl
    | setColl u c =>
      simp only [Proc.step]
      cases s.user[u]? with
      | none => rfl
      | some i => dsimp only; cases s.opts[i]? <;> rfl
    | openFile a b => rcases fileOpts_run a s with ⟨o, h, _⟩ | ⟨e, h⟩ <;> simp only [Proc.step, h] <;> cases b <;> rfl
  · intro c e
    subst e
    refine ⟨fun u o h => (C68_independent hs h).1 _ ⟨by intros; simp, by intros; simp⟩, fun f o h => file_kept [.newDefault c] s (reachProc_inv hs) f o h⟩

/-- C68. A collection is one object for all who use it: a call on it (adding a marshaller, say) changes it for every File and every Options object with it, also for Files
opened before, and it is changed by nothing else. -/
theorem C68_shared {s : Proc} {c : Nat} {k : Coll} (hs : ReachProc s) (hk : s.colls[c]? = some k) :
    (∀ a, (∀ o, a ≠ .coll c o) → (s.step a).1.colls[c]? = some k) ∧
    ∀ o, (s.step (.coll c o)).1.colls[c]? = some (cstep ⟨k, s.world⟩ o).1.coll ∧ (∀ u p, UserHas s u p → UserHas (s.step (.coll c o)).1 u p) ∧
      ∀ f p, FileHas s f p → FileHas (s.step (.coll c o)).1 f p := by
  have hi := reachProc_inv hs
  refine ⟨fun a ha => (proc_step hi a).2.colls c k hk ha, fun o => ⟨?_, fun u p h => (C68_independent hs h).1 _ ⟨by intros; simp, by intros; simp⟩,
    fun f p h => file_kept [.coll c o] s hi f p h⟩⟩
  have hlt := (List.getElem?_eq_some_iff.1 hk).1
  simp only [Proc.step, hk, List.getElem?_set_self hlt]

/-- C68. The values of every Options object and those every File works with come about by the constructor and assignments, so they are always valid and MATLAB compatible
as far as they say so (C08, C09). -/
theorem C68_valid {s : Proc} (hs : ReachProc s) {o : OptObj} (h : (∃ u, UserHas s u o) ∨ ∃ f, FileHas s f o) :
    ReachableOptions o.vals ∧ (∀ n, validOpt n (o.vals n)) ∧ (o.vals .matlabCompatible = .bool true → ∀ n w, (n, w) ∈ matlabTable → o.vals n = w) := by
  have hv : ReachableOptions o.vals := by
    rcases h with ⟨_, i, _, h⟩ | ⟨_, i, _, h⟩ <;> exact (reachProc_inv hs).vals _ (List.mem_of_getElem? h)
  exact ⟨hv, C09_always_valid _ hv, C08_matlab_table _ hv⟩

/-- A collection without marshallers, an Options object, a File with it, another assignment to it. -/
def exShared : List PAct := [.newOpts [(.compress, .bool false)] none, .openFile (.given 0 []) true, .setOpt 0 .compress (.bool true)]

example : ReachProc ((Proc.start ⟨true, [], [], [], [], [], [], [], [], [], []⟩ []).run exShared) := ⟨_, _, _, rfl⟩

example : ∃ o p, UserHas ((Proc.start ⟨true, [], [], [], [], [], [], [], [], [], []⟩ []).run exShared) 0 o ∧
    FileHas ((Proc.start ⟨true, [], [], [], [], [], [], [], [], [], []⟩ []).run exShared) 0 p ∧ o.vals .compress = .bool true ∧ p.vals .compress = .bool false :=
  ⟨_, _, ⟨0, rfl, rfl⟩, ⟨1, rfl, rfl⟩, rfl, rfl⟩

end HS
