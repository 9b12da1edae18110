import Verif.Lemmas.Collection
/-
C11–C15: the marshaller collection.
-/
namespace HS
open Spec

theorem newCollection_ok {env : Env} {b : List Marshaller} {eps : List EntryPoint} {w : World} {load lazy : Bool}
    {prio : List Str} {u : MArg} {s0 : CState} (h : newCollection env b eps w load lazy prio u = (s0, .ok ())) :
    Cons s0.coll ∧ s0.coll.builtin = b ∧ s0.coll.plugin = loadPlugins load eps ∧ s0.coll.priority = prio ∧
    s0.coll.user = (eventsOf (.add u)).foldl applyEv [] ∧ ImpOk s0 ∧ AbsOk w env [] s0 := by
  simp only [newCollection] at h
  split at h
  · simp at h
  · split at h
    · simp at h
    · have h2 := congrArg (·.2) h
      have h1 := congrArg (·.1) h
      simp only at h1 h2
      have h3 := addMarshaller_ok _ _ _ h2
      have h4 := h2
      rw [h3.2] at h4
      have h5 := update_cons _ _ h4
      rw [← h3.2, h1] at h5
      refine ⟨h5.1, h5.2.2.1, h5.2.2.2.1, h5.2.2.2.2, ?_, ?_, ?_⟩
      · rw [h5.2.1]
        simp only [addLoop_ok _ _ h3.1, foldl_add, eventsOf]
      · rw [← h1]
        refine add_impOk _ _ _ ?_
        intro i m hm; simp at hm
      · have := update_absOk _ _ h4
        rw [← h3.2, h1] at this; exact this

/-- C11. After construction and any history of calls none of whose changing calls raised, a lookup gives the first marshaller declaring the
key, in priority order and then list order, and `None` exactly if there is none. The only exception it can raise is one
raised, other than `ImportError`, by the import of a module that marshaller requires. -/
theorem C11_priority_lookup (env0 : Env) (b : List Marshaller) (eps : List EntryPoint) (w : World) (load lazy : Bool)
    (prio : List Str) (u : MArg) (s0 : CState) (h0 : newCollection env0 b eps w load lazy prio u = (s0, .ok ()))
    (ops : List (Env × COp)) (hs : smooth ops (crun s0 ops).2) (env : Env) (k : Key) :
    let s := (crun s0 ops).1
    let best := (ranked prio b (loadPlugins load eps) s.coll.user).find? (declares k)
    match (lookup env k s).2 with
    | .ok (m, flag) => m = best ∧ (m = none → flag = false)
    | .error e => e = .other ∧ ∃ m, best = some m ∧ ∃ n ∈ m.requiredModules, (env.imp n).1 = .otherError := by
  intro s best
  obtain ⟨hc0, hb, hp, hpr, _⟩ := newCollection_ok h0
  have hc : Cons s.coll := crun_cons s0 ops hc0 hs
  have hf := crun_builtin s0 ops
  have hms : s.coll.marshallers = ranked prio b (loadPlugins load eps) s.coll.user := by
    rw [hc.ms]
    show ranked (crun s0 ops).1.coll.priority _ _ _ = _
    rw [hf.1, hf.2.1, hf.2.2, hb, hp, hpr]
  have hbest : best = (s.coll.marshallers.findIdx? (declares k)).bind (fun i => s.coll.marshallers[i]?) := by
    rw [findIdx?_get, hms]
  rw [lookup_eq env s hc k]
  cases hi : s.coll.marshallers.findIdx? (declares k) with
  | none =>
    rw [hi] at hbest
    simp only [hbest, Option.bind_none]
    exact ⟨trivial, fun _ => trivial⟩
  | some i =>
    rw [hi, Option.bind_some] at hbest
    obtain ⟨m, im, hs', h1, h2, h3⟩ := lookupIndex_ok env s hc i (findIdx?_lt _ _ _ hi)
    rw [h1] at hbest
    simp only [lookupIndex, h1, h2, h3]
    split
    · rename_i heq
      split at heq
      · simp at heq; rw [← heq.1, hbest]; exact ⟨rfl, by simp⟩
      · split at heq
        · simp at heq; rw [← heq.1, hbest]; exact ⟨rfl, by simp⟩
        · split at heq
          · simp at heq; rw [← heq.1, hbest]; exact ⟨rfl, by simp⟩
          · simp at heq
    · rename_i e heq
      split at heq
      · simp at heq
      · split at heq
        · simp at heq
        · split at heq
          · simp at heq
          · rename_i w' e' hx
            simp at heq; subst heq
            have := importModules_error env m.requiredModules s.world e' (by rw [hx])
            exact ⟨this.1, m, hbest, this.2⟩

/-- C12. After construction with `u` and any history of calls none of whose changing calls raised: no duplicates, the members
are the marshallers added and not since removed, in the order in which their membership began; builtin and
plugin marshallers and the priority are as at the start. -/
theorem C12_user_marshallers (env0 : Env) (b : List Marshaller) (eps : List EntryPoint) (w : World) (load lazy : Bool)
    (prio : List Str) (u : MArg) (s0 : CState) (h0 : newCollection env0 b eps w load lazy prio u = (s0, .ok ()))
    (ops : List (Env × COp)) (hs : smooth ops (crun s0 ops).2) :
    let c := (crun s0 ops).1.coll
    let history := ((COp.add u :: ops.map (·.2)).flatMap eventsOf).reverse
    c.user.Nodup ∧ (∀ m, m ∈ c.user ↔ presentR m history = true) ∧
    c.user.Pairwise (fun x y => sinceR x history < sinceR y history) ∧
    c.builtin = b ∧ c.plugin = loadPlugins load eps ∧ c.priority = prio := by
  intro c history
  obtain ⟨hc0, hb, hp, hpr, hu, _⟩ := newCollection_ok h0
  have hf := crun_builtin s0 ops
  have hcu : c.user = ((COp.add u :: ops.map (·.2)).flatMap eventsOf).foldl applyEv [] := by
    show (crun s0 ops).1.coll.user = _
    rw [crun_user s0 ops hs, hu, List.flatMap_cons, List.foldl_append, List.flatMap_map]
  have ho := UserOk.foldl ((COp.add u :: ops.map (·.2)).flatMap eventsOf) [] [] UserOk.nil
  rw [List.append_nil, ← hcu] at ho
  exact ⟨ho.nodup, ho.mem, ho.order, hf.1.trans hb, hf.2.1.trans hp, hf.2.2.trans hpr⟩

/-- C12: builtin and plugin marshallers are never affected, not even by raising calls. -/
theorem C12_builtin_untouched (env0 : Env) (b : List Marshaller) (eps : List EntryPoint) (w : World) (load lazy : Bool)
    (prio : List Str) (u : MArg) (s0 : CState) (h0 : newCollection env0 b eps w load lazy prio u = (s0, .ok ()))
    (ops : List (Env × COp)) :
    (crun s0 ops).1.coll.builtin = b ∧ (crun s0 ops).1.coll.plugin = loadPlugins load eps := by
  obtain ⟨_, hb, hp, _⟩ := newCollection_ok h0
  have hf := crun_builtin s0 ops
  exact ⟨hf.1.trans hb, hf.2.1.trans hp⟩

/-- C13, first half. After any history (raising calls included), a lookup answering `True` guarantees that every module the
marshaller requires is imported. -/
theorem C13_true_is_truthful (env0 : Env) (b : List Marshaller) (eps : List EntryPoint) (w : World) (load lazy : Bool)
    (prio : List Str) (u : MArg) (s0 : CState) (h0 : newCollection env0 b eps w load lazy prio u = (s0, .ok ()))
    (ops : List (Env × COp)) (env : Env) (k : Key) (m : Marshaller)
    (h : (lookup env k (crun s0 ops).1).2 = .ok (some m, true)) :
    ∀ n ∈ m.requiredModules, n ∈ (lookup env k (crun s0 ops).1).1.world := by
  have hi := crun_impOk s0 ops (newCollection_ok h0).2.2.2.2.2.1
  generalize (crun s0 ops).1 = s at *
  have key : ∀ d x, (lookupIn d x env s).2 = .ok (some m, true) →
      ∀ n ∈ m.requiredModules, n ∈ (lookupIn d x env s).1.world := by
    intro d x h
    simp only [lookupIn] at h ⊢
    split at h
    · exact lookupIndex_true env s hi _ m h
    · simp at h
  cases k <;> exact key _ _ h

/-- C13, second half. From any state: after a changing call that did not raise and any lookups and imports since, a lookup answering `False`
for a marshaller means that a required parent module was neither loaded nor findable at that changing call, or that the import of a required module
failed with `ImportError` then or since. -/
theorem C13_false_is_justified (s : CState) (env0 : Env) (op : COp) (hop : isMut op = true)
    (h0 : (cstep s (env0, op)).2 = .done) (ops : List (Env × COp)) (hops : ∀ o ∈ ops, isMut o.2 = false)
    (env : Env) (k : Key) (m : Marshaller)
    (h : (lookup env k (crun (cstep s (env0, op)).1 ops).1).2 = .ok (some m, false)) :
    (∃ n ∈ m.requiredParents, n ∉ s.world ∧ env0.find n = false) ∨
    (∃ n ∈ m.requiredModules, ∃ e ∈ env0 :: (ops.map (·.1) ++ [env]), (e.imp n).1 = .importError) := by
  have h1 : AbsOk s.world env0 [] (cstep s (env0, op)).1 := by
    cases op with
    | add a =>
      have hok := addMarshaller_ok env0 a s (ofUnit_done _ h0)
      have h2 := ofUnit_done _ h0
      simp only [cstep]
      rw [hok.2] at h2 ⊢
      exact update_absOk env0 _ h2
    | remove a => exact update_absOk env0 _ (ofUnit_done _ h0)
    | clear => exact update_absOk env0 _ (ofUnit_done _ h0)
    | get k => simp [isMut] at hop
    | load l => simp [isMut] at hop
  have h2 := crun_absOk ops [] _ h1 hops
  rw [List.nil_append] at h2
  generalize (crun (cstep s (env0, op)).1 ops).1 = t at *
  have h3 := lookup_absOk env t h2 k
  have key : ∀ d x, (lookupIn d x env t).2 = .ok (some m, false) →
      ∃ i : Nat, (lookupIn d x env t).1.coll.marshallers[i]? = some m ∧ (lookupIn d x env t).1.coll.has[i]? = some false := by
    intro d x h
    simp only [lookupIn] at h ⊢
    split at h
    · exact ⟨_, lookupIndex_false env t _ m h⟩
    · simp at h
  have : ∃ i : Nat, (lookup env k t).1.coll.marshallers[i]? = some m ∧ (lookup env k t).1.coll.has[i]? = some false := by
    cases k <;> exact key _ _ h
  obtain ⟨i, h4, h5⟩ := this
  exact h3 i m h4 h5

theorem addLoop_other (l : List Item) (u : List Marshaller) (h : Item.other ∈ l) : (addLoop l u).2 = .error .typeError := by
  induction l generalizing u with
  | nil => simp at h
  | cons a r ih =>
    cases a with
    | other => rfl
    | m x => simp at h; exact ih _ h

theorem addLoop_known (l : List Item) (u : List Marshaller) (pre post : List Item) (hl : l = pre ++ .other :: post)
    (hp : ∀ i ∈ pre, ∃ m ∈ u, i = .m m) : (addLoop l u).1 = u := by
  subst hl
  induction pre with
  | nil => rfl
  | cons a r ih =>
    obtain ⟨m, hm, rfl⟩ := hp a (by simp)
    simp only [List.cons_append, addLoop, if_pos hm]
    exact ih (fun i hi => hp i (by simp [hi]))

theorem lookup_user_irrelevant (env : Env) (k : Key) (s : CState) (u : List Marshaller) :
    lookup env k { s with coll := { s.coll with user := u } } =
      ((let t := (lookup env k s).1; { t with coll := { t.coll with user := u } }), (lookup env k s).2) := by
  have hi : ∀ i, lookupIndex env { s with coll := { s.coll with user := u } } i =
      ((let t := (lookupIndex env s i).1; { t with coll := { t.coll with user := u } }), (lookupIndex env s i).2) := by
    intro i
    simp only [lookupIndex]
    split
    · split
      · simp
      · split
        · simp
        · split <;> simp
    · simp
  have hd : ∀ d x, lookupIn d x env { s with coll := { s.coll with user := u } } =
      ((let t := (lookupIn d x env s).1; { t with coll := { t.coll with user := u } }), (lookupIn d x env s).2) := by
    intro d x
    simp only [lookupIn]
    split
    · exact hi _
    · rfl
  cases k <;> exact hd _ _

/-- C14 (partial). Given an object that is no marshaller `add_marshaller` raises `TypeError`; `sys.modules` and all tables are as
before, every sequence of lookups made afterwards gives what it would have given without the call, and if no new
marshaller precedes the offending object the call has no effect at all.
Missing: new marshallers before the offending object stay in the user list and appear at the next update
(`C14_counterexample`, finding F11). -/
theorem C14_failed_add_partial (s : CState) (env : Env) (a : MArg) (h : Item.other ∈ a.items) :
    (addMarshaller env a s).2 = .error .typeError ∧
    (addMarshaller env a s).1.world = s.world ∧
    { (addMarshaller env a s).1.coll with user := s.coll.user } = s.coll ∧
    (∀ gets : List (Env × COp), (∀ o ∈ gets, isMut o.2 = false) →
      (crun (addMarshaller env a s).1 gets).2 = (crun s gets).2) ∧
    (∀ pre post, a.items = pre ++ .other :: post → (∀ i ∈ pre, ∃ m ∈ s.coll.user, i = .m m) →
      (addMarshaller env a s).1 = s) := by
  have h1 := addLoop_other a.items s.coll.user h
  have h2 : addMarshaller env a s =
      ({ s with coll := { s.coll with user := (addLoop a.items s.coll.user).1 } }, .error .typeError) := by
    simp only [addMarshaller, h1]
  rw [h2]
  refine ⟨rfl, rfl, rfl, ?_, ?_⟩
  · intro gets hg
    generalize (addLoop a.items s.coll.user).1 = u
    clear h1 h2 h
    simp only
    induction gets generalizing s with
    | nil => rfl
    | cons o r ih =>
      obtain ⟨e, op⟩ := o
      have hm := hg (e, op) (by simp)
      have hr := fun o ho => hg o (List.mem_cons_of_mem _ ho)
      cases op with
      | get k =>
        simp only [crun, cstep]
        rw [lookup_user_irrelevant]
        simp only
        rw [ih (lookup e k s).1 hr]
      | load l =>
        simp only [crun, cstep]
        have := ih { s with world := l ++ s.world } hr
        simp only at this
        rw [this]
      | add a => simp [isMut] at hm
      | remove a => simp [isMut] at hm
      | clear => simp [isMut] at hm
  · intro pre post hl hp
    simp only
    rw [addLoop_known a.items s.coll.user pre post hl hp]

/-- An environment in which everything can be imported. -/
def envAll : Env := ⟨fun _ => true, fun _ => (.ok, [])⟩
/-- A marshaller for `a.B` needing the modules `a` and `a.c`. -/
def exM1 : Marshaller := ⟨1, [.cls p!"a" p!"B"], [p!"ab"], [p!"cell"], [p!"a"], [p!"a", p!"a.c"]⟩
/-- Another one that also claims `a.B` (as str) and `d.E`. -/
def exM2 : Marshaller := ⟨2, [.str p!"a.B", .str p!"d.E"], [p!"ab", p!"de"], [], [], []⟩
/-- The default priority. -/
def exPrio : List Str := [p!"builtin", p!"plugin", p!"user"]

/-- F11: `add_marshaller([m2, object()])` raises, the next call (adding nothing) makes `m2` effective. -/
theorem C14_counterexample : ∃ s0, newCollection envAll [exM1] [] [] false true exPrio (.many []) = (s0, .ok ()) ∧
    (lookup envAll (.typeString p!"de") (cstep s0 (envAll, .add (.many []))).1).2 = .ok (none, false) ∧
    (addMarshaller envAll (.many [.m exM2, .other]) s0).2 = .error .typeError ∧
    (lookup envAll (.typeString p!"de")
      (cstep (addMarshaller envAll (.many [.m exM2, .other]) s0).1 (envAll, .add (.many []))).1).2
      = .ok (some exM2, true) := by
  have h : (newCollection envAll [exM1] [] [] false true exPrio (.many [])).2 = .ok () := by decide +kernel
  refine ⟨(newCollection envAll [exM1] [] [] false true exPrio (.many [])).1, by rw [← h], ?_, ?_, ?_⟩ <;> decide +kernel

/-- C15. Construction checks the priority: it raises `ValueError` whenever the priority is not a permutation of the three names, and
with a permutation (and no arguments or environment that raise themselves) it succeeds. -/
theorem C15_priority_validated (env : Env) (b : List Marshaller) (eps : List EntryPoint) (w : World) (load lazy : Bool)
    (prio : List Str) (u : MArg) :
    (¬ prio.Perm [p!"builtin", p!"plugin", p!"user"] →
      (newCollection env b eps w load lazy prio u).2 = .error .valueError) ∧
    (prio.Perm [p!"builtin", p!"plugin", p!"user"] → Item.other ∉ u.items →
      (∀ n, (env.imp n).1 ≠ .otherError) → (newCollection env b eps w load lazy prio u).2 = .ok ()) := by
  constructor
  · intro h
    simp only [newCollection]
    split
    · rfl
    · split
      · rfl
      · rename_i h2
        exact absurd ((sortStr_eq_iff _ _).mp (Classical.not_not.mp h2)) h
  · intro h hu he
    have hadd : ∀ (l : List Item) (x : List Marshaller), Item.other ∉ l → (addLoop l x).2 = .ok () := by
      intro l
      induction l with
      | nil => intros; rfl
      | cons a r ih =>
        intro x hl
        cases a with
        | other => simp at hl
        | m y => simp at hl; exact ih _ hl
    have hscan : ∀ (ms : List Marshaller) (w : World), (scan env lazy ms w).exc = none := by
      intro ms
      induction ms with
      | nil => intros; rfl
      | cons m r ih =>
        intro w
        simp only [scan]
        split
        · exact ih w
        · split
          · exact ih w
          · split
            · exact ih w
            · split
              · exact ih _
              · rename_i e hx
                obtain ⟨_, n, _, hn⟩ := importModules_error env m.requiredModules w e (by rw [hx])
                exact absurd hn (he n)
    have hcomb : ∀ b p u', ∃ ms, combine b p u' prio = some ms := by
      intro b p u'
      have hall : ∀ v ∈ prio, v = p!"builtin" ∨ v = p!"plugin" ∨ v = p!"user" := by
        intro v hv
        have := (h.mem_iff).mp hv
        simpa using this
      clear h
      induction prio with
      | nil => exact ⟨[], rfl⟩
      | cons v r ih =>
        obtain ⟨ms, hms⟩ := ih (fun v hv => hall v (by simp [hv]))
        simp only [combine, hms]
        rcases hall v (by simp) with rfl | rfl | rfl <;> simp
    simp only [newCollection]
    rw [if_neg (by simpa using h.length_eq), if_neg (by simpa using (sortStr_eq_iff _ _).mpr h)]
    simp only [addMarshaller, hadd _ _ hu, updateMarshallers]
    obtain ⟨ms, hms⟩ := hcomb b (loadPlugins load eps) (addLoop u.items []).1
    simp only [hms, hscan]

/-- Finding F20: without lazy loading a required module whose import raises something other than `ImportError` leaves the
lookup tables pointing into the new list: the type string "ab" of `exM1` then gives the other marshaller, which does not declare it. -/
theorem C11_counterexample_foreign_exception :
    ∃ (m : Marshaller) (bad : Env) (s0 : CState), newCollection envAll [] [] [] false false exPrio.reverse (.single (.m exM1)) = (s0, .ok ()) ∧
      (removeMarshaller bad (.single (.m exM1)) (addMarshaller bad (.single (.m m)) s0).1).2 = .error .other ∧
      (lookup envAll (.typeString p!"ab")
        (removeMarshaller bad (.single (.m exM1)) (addMarshaller bad (.single (.m m)) s0).1).1).2 = .ok (some m, true) ∧
      declares (.typeString p!"ab") m = false := by
  refine ⟨⟨3, [], [p!"z"], [], [], [p!"z"]⟩, ⟨fun _ => true, fun _ => (.otherError, [])⟩, 
    (newCollection envAll [] [] [] false false exPrio.reverse (.single (.m exM1))).1, ?_, ?_, ?_, ?_⟩
  · have h : (newCollection envAll [] [] [] false false exPrio.reverse (.single (.m exM1))).2 = .ok () := by decide +kernel
    rw [← h]
  · decide +kernel
  · decide +kernel
  · decide +kernel

-- Priority really decides: `a.B` is claimed by both.
example : ∃ s0, newCollection envAll [exM1] [] [] false true exPrio (.single (.m exM2)) = (s0, .ok ()) ∧
    (lookup envAll (.type (.str p!"a.B")) s0).2 = .ok (some exM1, true) ∧
    (lookup envAll (.typeString p!"de") s0).2 = .ok (some exM2, true) := by
  have h : (newCollection envAll [exM1] [] [] false true exPrio (.single (.m exM2))).2 = .ok () := by decide +kernel
  refine ⟨_, by rw [← h], ?_, ?_⟩ <;> decide +kernel
example : ∃ s0, newCollection envAll [exM1] [] [] false true exPrio.reverse (.single (.m exM2)) = (s0, .ok ()) ∧
    (lookup envAll (.type (.cls p!"a" p!"B")) s0).2 = .ok (some exM2, true) ∧
    (lookup envAll (.typeString p!"xx") s0).2 = .ok (none, false) := by
  have h : (newCollection envAll [exM1] [] [] false true exPrio.reverse (.single (.m exM2))).2 = .ok () := by decide +kernel
  refine ⟨_, by rw [← h], ?_, ?_⟩ <;> decide +kernel
-- A history with additions, removals and a lookup; removal and re-addition changes the order.
example : ∃ s0, newCollection envAll [] [] [] false true exPrio (.many [.m exM1, .m exM2, .m exM1]) = (s0, .ok ()) ∧
    smooth [(envAll, .remove (.single (.m exM1))), (envAll, .get (.typeString p!"ab")), (envAll, .add (.single (.m exM1)))]
      (crun s0 [(envAll, .remove (.single (.m exM1))), (envAll, .get (.typeString p!"ab")), (envAll, .add (.single (.m exM1)))]).2 ∧
    (crun s0 [(envAll, .remove (.single (.m exM1))), (envAll, .get (.typeString p!"ab")), (envAll, .add (.single (.m exM1)))]).1.coll.user = [exM2, exM1] := by
  have h : (newCollection envAll [] [] [] false true exPrio (.many [.m exM1, .m exM2, .m exM1])).2 = .ok () := by decide +kernel
  refine ⟨_, by rw [← h], ?_, ?_⟩
  · simp only [crun, smooth]
    exact ⟨fun _ => by decide +kernel, fun h => absurd h (by decide), fun _ => by decide +kernel, trivial⟩
  · decide +kernel
-- An environment where `a.c` cannot be imported: the lookup says so.
example : ∃ s0, newCollection ⟨fun _ => true, fun n => (if n = p!"a.c" then .importError else .ok, [])⟩ [exM1] [] [] false true exPrio
      (.many []) = (s0, .ok ()) ∧
    (lookup ⟨fun _ => true, fun n => (if n = p!"a.c" then .importError else .ok, [])⟩ (.typeString p!"ab") s0).2 = .ok (some exM1, false) := by
  have h : (newCollection ⟨fun _ => true, fun n => (if n = p!"a.c" then .importError else .ok, [])⟩ [exM1] [] [] false true exPrio
      (.many [])).2 = .ok () := by decide +kernel
  refine ⟨_, by rw [← h], ?_⟩
  decide +kernel
example : (newCollection envAll [] [] [] false true [p!"user", p!"user", p!"plugin"] (.many [])).2 = .error .valueError := by
  decide +kernel

/-! ### Plugins -/

theorem mem_dictSet {α β : Type} [DecidableEq α] (k : α) (v : β) (d : List (α × β)) (hn : (d.map (·.1)).Nodup) (x : α × β) :
    x ∈ dictSet k v d ↔ x = (k, v) ∨ (x ∈ d ∧ x.1 ≠ k) := by
  induction d with
  | nil => simp [dictSet]
  | cons a r ih =>
    obtain ⟨k', v'⟩ := a
    simp only [List.map_cons, List.nodup_cons] at hn
    simp only [dictSet]
    split
    · rename_i hk
      subst hk
      simp only [List.mem_cons]
      constructor
      · rintro (h | h)
        · exact Or.inl h
        · refine Or.inr ⟨Or.inr h, ?_⟩
          intro hx
          exact hn.1 (List.mem_map.mpr ⟨x, h, hx⟩)
      · rintro (h | ⟨h | h, hx⟩)
        · exact Or.inl h
        · subst h; exact absurd rfl hx
        · exact Or.inr h
    · rename_i hk
      simp only [List.mem_cons, ih hn.2]
      constructor
      · rintro (h | h | h)
        · subst h; exact Or.inr ⟨Or.inl rfl, hk⟩
        · exact Or.inl h
        · exact Or.inr ⟨Or.inr h.1, h.2⟩
      · rintro (h | ⟨h | h, hx⟩)
        · exact Or.inr (Or.inl h)
        · exact Or.inl h
        · exact Or.inr (Or.inr ⟨h, hx⟩)

theorem dictSet_keys {α β : Type} [DecidableEq α] (k : α) (v : β) (d : List (α × β)) (hn : (d.map (·.1)).Nodup) :
    ((dictSet k v d).map (·.1)).Nodup := by
  induction d with
  | nil => simp [dictSet]
  | cons a r ih =>
    obtain ⟨k', v'⟩ := a
    simp only [List.map_cons, List.nodup_cons] at hn
    simp only [dictSet]
    split
    · rename_i hk; subst hk; simpa using hn
    · rename_i hk
      simp only [List.map_cons, List.nodup_cons]
      refine ⟨?_, ih hn.2⟩
      intro h
      obtain ⟨x, hx, hx1⟩ := List.mem_map.mp h
      rcases (mem_dictSet k v r hn.2 x).mp hx with rfl | ⟨hx, _⟩
      · exact hk hx1.symm
      · exact hn.1 (List.mem_map.mpr ⟨x, hx, hx1⟩)

theorem mem_foldl_dictSet {α β : Type} [DecidableEq α] (f : β → α) (l : List β) (d : List (α × β))
    (hn : (d.map (·.1)).Nodup) (x : α × β) :
    x ∈ l.foldl (fun d p => dictSet (f p) p d) d ↔
      (∃ pre post, l = pre ++ x.2 :: post ∧ f x.2 = x.1 ∧ ∀ q ∈ post, f q ≠ x.1) ∨ (x ∈ d ∧ ∀ q ∈ l, f q ≠ x.1) := by
  induction l generalizing d with
  | nil => simp
  | cons a r ih =>
    simp only [List.foldl_cons]
    rw [ih _ (dictSet_keys _ _ _ hn), mem_dictSet _ _ _ hn]
    constructor
    · rintro (⟨pre, post, rfl, h2, h3⟩ | ⟨rfl | ⟨h1, h2⟩, h3⟩)
      · exact Or.inl ⟨a :: pre, post, rfl, h2, h3⟩
      · exact Or.inl ⟨[], r, rfl, rfl, h3⟩
      · refine Or.inr ⟨h1, ?_⟩
        intro q hq
        rcases List.mem_cons.mp hq with rfl | hq
        · exact Ne.symm h2
        · exact h3 q hq
    · rintro (⟨pre, post, h1, h2, h3⟩ | ⟨h1, h2⟩)
      · cases pre with
        | nil =>
          simp at h1
          obtain ⟨rfl, rfl⟩ := h1
          refine Or.inr ⟨Or.inl ?_, h3⟩
          rw [h2]
        | cons b pre =>
          simp at h1
          obtain ⟨rfl, rfl⟩ := h1
          exact Or.inl ⟨pre, post, rfl, h2, h3⟩
      · exact Or.inr ⟨Or.inr ⟨h1, Ne.symm (h2 a (by simp))⟩, fun q hq => h2 q (by simp [hq])⟩

theorem mem_marshallersIn (m : Marshaller) (l : List Item) : m ∈ marshallersIn l ↔ Item.m m ∈ l := by
  induction l with
  | nil => simp [marshallersIn]
  | cons a r ih => cases a <;> simp [marshallersIn, ih]

/-- C51. The plugin marshallers are exactly the marshallers among the objects returned by the entry points of a supported API version
(the last entry point of each module counts); plugins that raise, are not callable, or return other objects are
ignored without hindering the others; without `load_plugins` there are none. -/
theorem C51_plugins (eps : List EntryPoint) (m : Marshaller) :
    (m ∈ loadPlugins true eps ↔
      ∃ ver ∈ supportedVersions, ∃ (pre post : List EntryPoint) (p : EntryPoint) (l : List Item), eps.filter (·.name == ver) = pre ++ p :: post ∧
        (∀ q ∈ post, q.moduleName ≠ p.moduleName) ∧ p.out = .returns l ∧ Item.m m ∈ l) ∧
    loadPlugins false eps = [] := by
  refine ⟨?_, rfl⟩
  simp only [loadPlugins, if_true, List.mem_flatMap, pluginsOf]
  constructor
  · rintro ⟨ver, hv, ⟨k, p⟩, hp, hm⟩
    rcases (mem_foldl_dictSet EntryPoint.moduleName _ [] (by simp) _).mp hp with ⟨pre, post, h1, h2, h3⟩ | ⟨h1, _⟩
    · simp only at h1 h2 h3 hm
      split at hm
      · rename_i l hl
        exact ⟨ver, hv, pre, post, p, l, h1, by rw [h2]; exact h3, hl, (mem_marshallersIn m l).mp hm⟩
      · simp at hm
    · simp at h1
  · rintro ⟨ver, hv, pre, post, p, l, h1, h2, h3, h4⟩
    refine ⟨ver, hv, (p.moduleName, p), ?_, ?_⟩
    · rw [mem_foldl_dictSet EntryPoint.moduleName _ [] (by simp)]
      exact Or.inl ⟨pre, post, h1, rfl, h2⟩
    · simp only [h3]; exact (mem_marshallersIn m l).mpr h4

-- A raising, an outdated and two good plugins of which one replaces the other.
example : loadPlugins true [⟨p!"1.0", p!"x", .raises⟩, ⟨p!"0.9", p!"y", .returns [.m exM1]⟩, ⟨p!"1.0", p!"z", .returns [.m exM1]⟩,
    ⟨p!"1.0", p!"z", .returns [.other, .m exM2]⟩] = [exM2] := by decide +kernel

end HS
