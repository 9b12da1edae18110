import Verif.Spec.Collection
/-
Lemmas about the marshaller collection.
-/
namespace HS
open Spec

/-! ### Dictionaries -/

theorem dictGet_append (d e : List (Str × Nat)) (k : Str) : dictGet (d ++ e) k = (dictGet d k).or (dictGet e k) := by
  induction d with
  | nil => simp [dictGet]
  | cons a r ih =>
    simp only [dictGet, List.cons_append, List.find?_cons] at ih ⊢
    cases h : a.1 == k <;> simp_all

theorem dictAdd_get (i : Nat) (ks : List Str) (d : List (Str × Nat)) (k : Str) :
    dictGet (dictAdd i ks d) k = (dictGet d k).or (if k ∈ ks then some i else none) := by
  induction ks generalizing d with
  | nil => simp [dictAdd]
  | cons a r ih =>
    rw [dictAdd, ih]
    split
    · rename_i h
      by_cases hk : k = a
      · subst hk
        obtain ⟨j, hj⟩ := Option.isSome_iff_exists.mp h
        simp [hj]
      · simp [hk]
    · rename_i h
      rw [dictGet_append]
      by_cases hk : k = a
      · subst hk
        have : dictGet d k = none := by simpa using h
        simp [this, dictGet]
      · have : dictGet [(a, i)] k = none := by
          simp [dictGet, Ne.symm hk]
        simp [this, hk]

theorem buildDict_get (keys : Marshaller → List Str) (ms : List Marshaller) (i : Nat) (d : List (Str × Nat)) (k : Str) :
    dictGet (buildDict keys i ms d) k =
      (dictGet d k).or ((ms.findIdx? (fun m => (keys m).contains k)).map (i + ·)) := by
  induction ms generalizing i d with
  | nil => simp [buildDict]
  | cons m r ih =>
    rw [buildDict, ih, dictAdd_get, List.findIdx?_cons]
    by_cases h : k ∈ keys m
    · cases dictGet d k <;> simp [h]
    · have hc : (keys m).contains k = false := by simpa using h
      simp only [hc]
      cases dictGet d k with
      | some j => simp
      | none =>
        simp only [h, if_false, Option.or_none, Option.none_or, Option.map_map, Bool.false_eq_true]
        congr 1
        funext j
        simp only [Function.comp]
        omega

theorem findIdx?_get (p : Marshaller → Bool) (ms : List Marshaller) :
    (ms.findIdx? p).bind (fun i => ms[i]?) = ms.find? p := by
  induction ms with
  | nil => simp
  | cons m r ih =>
    rw [List.findIdx?_cons, List.find?_cons]
    cases h : p m with
    | true => simp
    | false =>
      rw [← ih]
      cases r.findIdx? p <;> simp

theorem findIdx?_lt (p : Marshaller → Bool) (ms : List Marshaller) (i : Nat) (h : ms.findIdx? p = some i) :
    i < ms.length := by
  induction ms generalizing i with
  | nil => simp at h
  | cons m r ih =>
    rw [List.findIdx?_cons] at h
    split at h
    · cases h; simp
    · cases hr : r.findIdx? p with
      | none => simp [hr] at h
      | some j => simp [hr] at h; subst h; have := ih j hr; simp; omega

/-! ### The scan -/

theorem scan_length (env : Env) (lazy : Bool) (ms : List Marshaller) (w : World) :
    (scan env lazy ms w).has.length = ms.length ∧ (scan env lazy ms w).imported.length = ms.length := by
  induction ms generalizing w with
  | nil => simp [scan]
  | cons m r ih =>
    simp only [scan]
    split
    · simp [ih]
    · split
      · simp [ih]
      · split
        · simp [ih]
        · split <;> simp_all

theorem importModules_mono (env : Env) (l : List Str) (w : World) (n : Str) (h : n ∈ w) :
    n ∈ (importModules env l w).1 := by
  induction l generalizing w with
  | nil => exact h
  | cons a r ih =>
    simp only [importModules]
    split
    · exact ih w h
    · split
      · exact ih _ (by simp [h])
      · simp [h]
      · simp [h]

theorem importModules_true (env : Env) (l : List Str) (w : World) (h : (importModules env l w).2 = .ok true) :
    ∀ n ∈ l, n ∈ (importModules env l w).1 := by
  induction l generalizing w with
  | nil => simp
  | cons a r ih =>
    simp only [importModules] at h ⊢
    split at h
    · rename_i ha
      rw [if_pos ha]
      intro n hn
      rcases List.mem_cons.mp hn with rfl | hn
      · exact importModules_mono _ _ _ _ ha
      · exact ih w h n hn
    · rename_i ha
      rw [if_neg ha]
      split at h
      · rename_i hi
        intro n hn
        rcases List.mem_cons.mp hn with rfl | hn
        · exact importModules_mono _ _ _ _ (by simp)
        · exact ih _ h n hn
      · simp at h
      · simp at h

theorem importModules_false (env : Env) (l : List Str) (w : World) (h : (importModules env l w).2 = .ok false) :
    ∃ n ∈ l, n ∉ w ∧ (env.imp n).1 = .importError := by
  induction l generalizing w with
  | nil => simp [importModules] at h
  | cons a r ih =>
    simp only [importModules] at h
    split at h
    · obtain ⟨n, h1, h2⟩ := ih w h
      exact ⟨n, by simp [h1], h2⟩
    · rename_i ha
      split at h
      · obtain ⟨n, h1, h2, h3⟩ := ih _ h
        refine ⟨n, by simp [h1], ?_, h3⟩
        intro hw; exact h2 (by simp [hw])
      · rename_i hi
        exact ⟨a, by simp, ha, hi⟩
      · simp at h

theorem importModules_error (env : Env) (l : List Str) (w : World) (e : Exc) (h : (importModules env l w).2 = .error e) :
    e = .other ∧ ∃ n ∈ l, (env.imp n).1 = .otherError := by
  induction l generalizing w with
  | nil => simp [importModules] at h
  | cons a r ih =>
    simp only [importModules] at h
    split at h
    · obtain ⟨h0, n, h1, h2⟩ := ih w h
      exact ⟨h0, n, by simp [h1], h2⟩
    · split at h
      · obtain ⟨h0, n, h1, h2⟩ := ih _ h
        exact ⟨h0, n, by simp [h1], h2⟩
      · simp at h
      · rename_i hi
        simp at h
        exact ⟨h.symm, a, by simp, hi⟩

theorem firstAbsent_some (env : Env) (w : World) (l : List Str) (n : Str) (h : firstAbsent env w l = some n) :
    n ∈ l ∧ n ∉ w ∧ env.find n = false := by
  induction l with
  | nil => simp [firstAbsent] at h
  | cons a r ih =>
    simp only [firstAbsent] at h
    split at h
    · rename_i hc
      cases h
      simp at hc
      exact ⟨by simp, hc.1, hc.2⟩
    · obtain ⟨h1, h2⟩ := ih h
      exact ⟨by simp [h1], h2⟩

theorem scan_mono (env : Env) (lazy : Bool) (ms : List Marshaller) (w : World) (n : Str) (h : n ∈ w) :
    n ∈ (scan env lazy ms w).world := by
  induction ms generalizing w with
  | nil => exact h
  | cons m r ih =>
    simp only [scan]
    split
    · exact ih _ h
    · split
      · exact ih _ h
      · split
        · exact ih _ h
        · split
          · rename_i w' b hi
            refine ih _ ?_
            have := importModules_mono env m.requiredModules w n h
            rw [hi] at this; exact this
          · rename_i w' e hi
            have := importModules_mono env m.requiredModules w n h
            rw [hi] at this; exact this

/-- Whatever is flagged imported is imported. -/
theorem scan_imported (env : Env) (lazy : Bool) (ms : List Marshaller) (w : World) (i : Nat) (m : Marshaller)
    (hm : ms[i]? = some m) (h : (scan env lazy ms w).imported[i]? = some true) :
    ∀ n ∈ m.requiredModules, n ∈ (scan env lazy ms w).world := by
  induction ms generalizing w i with
  | nil => simp at hm
  | cons x r ih =>
    simp only [scan] at h ⊢
    split at h
    · rename_i a ha
      simp only [] 
      cases i with
      | zero => simp at h
      | succ i => simp at hm h; exact ih _ i hm h
    · split at h
      · rename_i hall
        simp only [hall, if_true]
        cases i with
        | zero =>
          simp at hm; subst hm
          intro n hn
          apply scan_mono
          simpa using List.all_eq_true.mp hall n hn
        | succ i => simp at hm h; exact ih _ i hm h
      · rename_i hall
        rw [if_neg hall]
        split at h
        · rename_i hl
          rw [if_pos hl]
          cases i with
          | zero => simp at h
          | succ i => simp at hm h; exact ih _ i hm h
        · rename_i hl
          rw [if_neg hl]
          split at h
          · rename_i w' b hi
            simp only [hi]
            cases i with
            | zero =>
              simp at hm h; subst hm; subst h
              intro n hn
              have := importModules_true env _ w (by rw [hi]) n hn
              rw [hi] at this
              exact scan_mono _ _ _ _ _ this
            | succ i => simp at hm h; exact ih _ i hm h
          · rename_i w' e hi
            exfalso
            cases i with
            | zero => simp at h
            | succ i => simp at h

/-- Whatever is flagged absent has a reason. -/
theorem scan_absent (env : Env) (lazy : Bool) (ms : List Marshaller) (w : World) (i : Nat) (m : Marshaller)
    (he : (scan env lazy ms w).exc = none)
    (hm : ms[i]? = some m) (h : (scan env lazy ms w).has[i]? = some false) :
    (∃ n ∈ m.requiredParents, n ∉ w ∧ env.find n = false) ∨
    (∃ n ∈ m.requiredModules, n ∉ w ∧ (env.imp n).1 = .importError) := by
  induction ms generalizing w i with
  | nil => simp at hm
  | cons x r ih =>
    simp only [scan] at h he
    split at h
    · rename_i a ha
      simp only [ha] at he
      cases i with
      | zero =>
        simp at hm; subst hm
        obtain ⟨h1, h2⟩ := firstAbsent_some _ _ _ _ ha
        exact Or.inl ⟨a, h1, h2⟩
      | succ i => simp at hm h; exact ih _ i he hm h
    · rename_i ha
      simp only [ha] at he
      split at h
      · rename_i hall
        simp only [hall, if_true] at he
        cases i with
        | zero => simp at h
        | succ i => simp at hm h; exact ih _ i he hm h
      · rename_i hall
        rw [if_neg hall] at he
        split at h
        · rename_i hl
          rw [if_pos hl] at he
          cases i with
          | zero => simp at h
          | succ i => simp at hm h; exact ih _ i he hm h
        · rename_i hl
          rw [if_neg hl] at he
          split at h
          · rename_i w' b hi
            simp only [hi] at he
            cases i with
            | zero =>
              simp at hm h; subst hm; subst h
              right
              exact importModules_false env _ w (by rw [hi])
            | succ i =>
              simp at hm h
              have hmono : ∀ n, n ∈ w → n ∈ w' := by
                intro n hn
                have := importModules_mono env x.requiredModules w n hn
                rw [hi] at this; exact this
              rcases ih _ i he hm h with ⟨n, h1, h2, h3⟩ | ⟨n, h1, h2, h3⟩
              · exact Or.inl ⟨n, h1, fun hn => h2 (hmono n hn), h3⟩
              · exact Or.inr ⟨n, h1, fun hn => h2 (hmono n hn), h3⟩
          · rename_i w' e hi
            simp [hi] at he

theorem combine_ranked (b p u : List Marshaller) (prio : List Str) (ms : List Marshaller)
    (h : combine b p u prio = some ms) : ms = ranked prio b p u := by
  induction prio generalizing ms with
  | nil => simp [combine] at h; subst h; rfl
  | cons v r ih =>
    simp only [combine] at h
    split at h
    · simp at h
    · rename_i t ht
      have := ih t ht
      simp only [ranked, List.flatMap_cons]
      simp only [ranked] at this
      rw [← this]
      split at h
      · rename_i hv; simp [hv] at h ⊢; exact h.symm
      · rename_i hv
        rw [if_neg hv]
        split at h
        · rename_i hv2; simp [hv2] at h ⊢; exact h.symm
        · rename_i hv2
          rw [if_neg hv2]
          split at h
          · rename_i hv3; simp [hv3] at h ⊢; exact h.symm
          · simp at h

/-! ### Consistency -/

/-- The collection's tables belong to its lists. -/
structure Cons (c : Coll) : Prop where
  ms : c.marshallers = ranked c.priority c.builtin c.plugin c.user
  has : c.has.length = c.marshallers.length
  imp : c.imported.length = c.marshallers.length
  types : c.types = buildDict (fun m => m.types.map TypeRef.key) 0 c.marshallers []
  strs : c.typeStrings = buildDict Marshaller.typeStrings 0 c.marshallers []
  mat : c.matlabClasses = buildDict Marshaller.matlabClasses 0 c.marshallers []

theorem update_cons (env : Env) (s : CState) (h : (updateMarshallers env s).2 = .ok ()) :
    Cons (updateMarshallers env s).1.coll ∧ (updateMarshallers env s).1.coll.user = s.coll.user ∧
    (updateMarshallers env s).1.coll.builtin = s.coll.builtin ∧ (updateMarshallers env s).1.coll.plugin = s.coll.plugin ∧
    (updateMarshallers env s).1.coll.priority = s.coll.priority := by
  unfold updateMarshallers at h ⊢
  split at h
  · simp at h
  · rename_i ms hms
    simp only [] at h ⊢
    split at h
    · simp at h
    · rename_i he
      simp only []
      refine ⟨⟨combine_ranked _ _ _ _ _ hms, ?_, ?_, rfl, rfl, rfl⟩, by simp⟩
      · exact (scan_length _ _ _ _).1
      · exact (scan_length _ _ _ _).2

theorem update_frame (env : Env) (s : CState) :
    (updateMarshallers env s).1.coll.user = s.coll.user ∧
    (updateMarshallers env s).1.coll.builtin = s.coll.builtin ∧ (updateMarshallers env s).1.coll.plugin = s.coll.plugin ∧
    (updateMarshallers env s).1.coll.priority = s.coll.priority := by
  unfold updateMarshallers
  split
  · simp
  · simp only []
    split <;> simp

/-- The dictionary a key is looked up in gives the index of the first declaring marshaller. -/
theorem dict_first (c : Coll) (hc : Cons c) (k : Key) :
    (match k with
      | .type t => dictGet c.types t.key
      | .typeString t => dictGet c.typeStrings t
      | .matlabClass x => dictGet c.matlabClasses x) = c.marshallers.findIdx? (declares k) := by
  have h0 : ∀ x : Str, dictGet [] x = none := fun x => rfl
  cases k with
  | type t =>
    simp only [hc.types]
    rw [buildDict_get, h0, Option.none_or]
    simp only [Nat.zero_add, Option.map_id']
    congr 1; funext m
    have hk : ∀ r : TypeRef, dottedName r = r.key := by intro r; cases r <;> simp [dottedName, TypeRef.key, dot]
    rw [Bool.eq_iff_iff]; simp [declares, hk]
  | typeString t =>
    simp only [hc.strs]
    rw [buildDict_get, h0, Option.none_or]
    simp only [Nat.zero_add, Option.map_id']
    rfl
  | matlabClass t =>
    simp only [hc.mat]
    rw [buildDict_get, h0, Option.none_or]
    simp only [Nat.zero_add, Option.map_id']
    rfl

theorem lookup_eq (env : Env) (s : CState) (hc : Cons s.coll) (k : Key) :
    lookup env k s = match s.coll.marshallers.findIdx? (declares k) with
      | some i => lookupIndex env s i
      | none => (s, .ok (none, false)) := by
  have := dict_first s.coll hc k
  cases k <;> simp only [lookup, lookupIn] at this ⊢ <;> rw [this] <;> rfl

theorem lookupIndex_ok (env : Env) (s : CState) (hc : Cons s.coll) (i : Nat) (hi : i < s.coll.marshallers.length) :
    ∃ m im hs, s.coll.marshallers[i]? = some m ∧ s.coll.imported[i]? = some im ∧ s.coll.has[i]? = some hs := by
  refine ⟨s.coll.marshallers[i], s.coll.imported[i]'(by rw [hc.imp]; exact hi), s.coll.has[i]'(by rw [hc.has]; exact hi), ?_, ?_, ?_⟩ <;>
    exact List.getElem?_eq_getElem _

theorem lookupIndex_frame (env : Env) (s : CState) (i : Nat) :
    let t := (lookupIndex env s i).1.coll
    t.lazy = s.coll.lazy ∧ t.priority = s.coll.priority ∧ t.builtin = s.coll.builtin ∧ t.plugin = s.coll.plugin ∧
    t.user = s.coll.user ∧ t.marshallers = s.coll.marshallers ∧ t.types = s.coll.types ∧
    t.typeStrings = s.coll.typeStrings ∧ t.matlabClasses = s.coll.matlabClasses ∧
    t.has.length = s.coll.has.length ∧ t.imported.length = s.coll.imported.length := by
  unfold lookupIndex
  split
  · split
    · simp
    · split
      · simp
      · split <;> simp
  · simp

theorem lookup_frame (env : Env) (s : CState) (k : Key) :
    let t := (lookup env k s).1.coll
    t.lazy = s.coll.lazy ∧ t.priority = s.coll.priority ∧ t.builtin = s.coll.builtin ∧ t.plugin = s.coll.plugin ∧
    t.user = s.coll.user ∧ t.marshallers = s.coll.marshallers ∧ t.types = s.coll.types ∧
    t.typeStrings = s.coll.typeStrings ∧ t.matlabClasses = s.coll.matlabClasses ∧
    t.has.length = s.coll.has.length ∧ t.imported.length = s.coll.imported.length := by
  cases k <;> simp only [lookup, lookupIn] <;> split <;>
    first | exact lookupIndex_frame env s _ | simp

theorem lookup_cons (env : Env) (s : CState) (k : Key) (hc : Cons s.coll) : Cons (lookup env k s).1.coll := by
  obtain ⟨h1, h2, h3, h4, h5, h6, h7, h8, h9, h10, h11⟩ := lookup_frame env s k
  constructor
  · rw [h6, h2, h3, h4, h5]; exact hc.ms
  · rw [h10, h6]; exact hc.has
  · rw [h11, h6]; exact hc.imp
  · rw [h7, h6]; exact hc.types
  · rw [h8, h6]; exact hc.strs
  · rw [h9, h6]; exact hc.mat

theorem ofUnit_done (r : Res Unit) (h : COut.ofUnit r = .done) : r = .ok () := by
  cases r with
  | ok _ => rfl
  | error e => simp [COut.ofUnit] at h

theorem addMarshaller_ok (env : Env) (a : MArg) (s : CState) (h : (addMarshaller env a s).2 = .ok ()) :
    (addLoop a.items s.coll.user).2 = .ok () ∧
    addMarshaller env a s = updateMarshallers env { s with coll := { s.coll with user := (addLoop a.items s.coll.user).1 } } := by
  unfold addMarshaller at h ⊢
  simp only [] at h ⊢
  split at h
  · simp at h
  · rename_i he
    exact ⟨he, by simp only []⟩

/-- A changing call that did not raise leaves consistent tables. -/
theorem cstep_mut_cons (s : CState) (env : Env) (o : COp) (hm : isMut o = true) (h : (cstep s (env, o)).2 = .done) :
    Cons (cstep s (env, o)).1.coll := by
  cases o with
  | add a =>
    simp only [cstep] at h ⊢
    have := addMarshaller_ok env a s (ofUnit_done _ h)
    have h2 := ofUnit_done _ h
    rw [this.2] at h2 ⊢
    exact (update_cons env _ h2).1
  | remove a =>
    simp only [cstep] at h ⊢
    exact (update_cons env _ (ofUnit_done _ h)).1
  | clear =>
    simp only [cstep] at h ⊢
    exact (update_cons env _ (ofUnit_done _ h)).1
  | get k => simp [isMut] at hm
  | load l => simp [isMut] at hm

theorem cstep_cons (s : CState) (o : Env × COp) (hc : Cons s.coll) (h : isMut o.2 = true → (cstep s o).2 = .done) :
    Cons (cstep s o).1.coll := by
  obtain ⟨env, op⟩ := o
  cases hm : isMut op with
  | true => exact cstep_mut_cons s env op hm (h hm)
  | false =>
    cases op with
    | get k => exact lookup_cons env s k hc
    | load l => exact hc
    | add a => simp [isMut] at hm
    | remove a => simp [isMut] at hm
    | clear => simp [isMut] at hm

theorem crun_cons (s : CState) (l : List (Env × COp)) (hc : Cons s.coll) (h : smooth l (crun s l).2) :
    Cons (crun s l).1.coll := by
  induction l generalizing s with
  | nil => exact hc
  | cons o r ih =>
    simp only [crun, smooth] at h ⊢
    exact ih _ (cstep_cons s o hc h.1) h.2

/-! ### User list -/

theorem addLoop_ok (l : List Item) (u : List Marshaller) (h : (addLoop l u).2 = .ok ()) :
    (addLoop l u).1 = (marshallersIn l).foldl (fun u x => if x ∈ u then u else u ++ [x]) u := by
  induction l generalizing u with
  | nil => rfl
  | cons a r ih =>
    cases a with
    | other => simp [addLoop] at h
    | m x => simp only [addLoop, marshallersIn, List.foldl_cons] at h ⊢; exact ih _ h

theorem removeLoop_eq (l : List Item) (u : List Marshaller) :
    removeLoop l u = (marshallersIn l).foldl (fun u x => u.erase x) u := by
  induction l generalizing u with
  | nil => rfl
  | cons a r ih =>
    cases a with
    | other => simp only [removeLoop, marshallersIn]; exact ih _
    | m x =>
      simp only [removeLoop, marshallersIn, List.foldl_cons]
      rw [ih]
      split
      · rfl
      · rename_i h; rw [List.erase_of_not_mem h]

/-- What one elementary change does to the list. -/
def applyEv (u : List Marshaller) : Ev → List Marshaller
  | .add x => if x ∈ u then u else u ++ [x]
  | .remove x => u.erase x
  | .clear => []

/-- The list agrees with the declarative description after the changes `evs` (most recent first). -/
structure UserOk (evs : List Ev) (u : List Marshaller) : Prop where
  nodup : u.Nodup
  mem : ∀ m, m ∈ u ↔ presentR m evs = true
  order : u.Pairwise (fun a b => sinceR a evs < sinceR b evs)
  bound : ∀ m ∈ u, sinceR m evs < evs.length

theorem UserOk.nil : UserOk [] [] := ⟨by simp, by simp [presentR], by simp, by simp⟩

theorem UserOk.step (evs : List Ev) (u : List Marshaller) (h : UserOk evs u) (e : Ev) :
    UserOk (e :: evs) (applyEv u e) := by
  have hsince : ∀ m ∈ u, sinceR m (e :: evs) = sinceR m evs := by
    intro m hm
    simp [sinceR, (h.mem m).mp hm]
  cases e with
  | clear =>
    refine ⟨by simp [applyEv], by simp [applyEv, presentR], by simp [applyEv], by simp [applyEv]⟩
  | add x =>
    by_cases hx : x ∈ u
    · simp only [applyEv, if_pos hx]
      refine ⟨h.nodup, ?_, ?_, ?_⟩
      · intro m
        simp only [presentR, Bool.or_eq_true, beq_iff_eq]
        constructor
        · intro hm; exact Or.inr ((h.mem m).mp hm)
        · rintro (rfl | hm)
          · exact hx
          · exact (h.mem m).mpr hm
      · refine h.order.imp_of_mem ?_
        intro a b ha hb hab
        rw [hsince a ha, hsince b hb]; exact hab
      · intro m hm
        rw [hsince m hm]; have := h.bound m hm; simp; omega
    · simp only [applyEv, if_neg hx]
      have hnew : sinceR x (.add x :: evs) = evs.length := by
        have : presentR x evs = false := by
          cases hp : presentR x evs with
          | true => exact absurd ((h.mem x).mpr hp) hx
          | false => rfl
        simp [sinceR, this]
      refine ⟨?_, ?_, ?_, ?_⟩
      · rw [List.nodup_append]
        refine ⟨h.nodup, by simp, ?_⟩
        intro a ha b hb
        simp at hb; subst hb
        intro hab; subst hab; exact hx ha
      · intro m
        simp only [List.mem_append, List.mem_singleton, presentR, Bool.or_eq_true, beq_iff_eq, h.mem m]
        constructor
        · rintro (h | h)
          · exact Or.inr h
          · exact Or.inl h.symm
        · rintro (h | h)
          · exact Or.inr h.symm
          · exact Or.inl h
      · rw [List.pairwise_append]
        refine ⟨?_, by simp, ?_⟩
        · refine h.order.imp_of_mem ?_
          intro a b ha hb hab
          rw [hsince a ha, hsince b hb]; exact hab
        · intro a ha b hb
          simp at hb; subst hb
          rw [hsince a ha, hnew]; exact h.bound a ha
      · intro m hm
        rcases List.mem_append.mp hm with hm | hm
        · rw [hsince m hm]; have := h.bound m hm; simp; omega
        · simp at hm; subst hm; rw [hnew]; simp
  | remove x =>
    simp only [applyEv]
    have hsub : ∀ m, m ∈ u.erase x → m ∈ u := fun m hm => List.mem_of_mem_erase hm
    refine ⟨h.nodup.erase x, ?_, ?_, ?_⟩
    · intro m
      rw [h.nodup.mem_erase_iff, h.mem m]
      simp only [presentR, Bool.and_eq_true, bne_iff_ne]
      constructor
      · rintro ⟨a, b⟩; exact ⟨Ne.symm a, b⟩
      · rintro ⟨a, b⟩; exact ⟨Ne.symm a, b⟩
    · refine (h.order.sublist List.erase_sublist).imp_of_mem ?_
      intro a b ha hb hab
      rw [hsince a (hsub a ha), hsince b (hsub b hb)]; exact hab
    · intro m hm
      rw [hsince m (hsub m hm)]; have := h.bound m (hsub m hm); simp; omega

theorem UserOk.foldl (l : List Ev) (evs : List Ev) (u : List Marshaller) (h : UserOk evs u) :
    UserOk (l.reverse ++ evs) (l.foldl applyEv u) := by
  induction l generalizing evs u with
  | nil => exact h
  | cons e r ih =>
    simp only [List.reverse_cons, List.append_assoc, List.singleton_append, List.foldl_cons]
    exact ih _ _ (h.step evs u e)

theorem foldl_add (l : List Marshaller) (u : List Marshaller) :
    l.foldl (fun u x => if x ∈ u then u else u ++ [x]) u = (l.map Ev.add).foldl applyEv u := by
  induction l generalizing u with
  | nil => rfl
  | cons a r ih => simp only [List.foldl_cons, List.map_cons]; exact ih _

theorem foldl_remove (l : List Marshaller) (u : List Marshaller) :
    l.foldl (fun u x => u.erase x) u = (l.map Ev.remove).foldl applyEv u := by
  induction l generalizing u with
  | nil => rfl
  | cons a r ih => simp only [List.foldl_cons, List.map_cons]; exact ih _

theorem cstep_user (s : CState) (o : Env × COp) (h : isMut o.2 = true → (cstep s o).2 = .done) :
    (cstep s o).1.coll.user = (eventsOf o.2).foldl applyEv s.coll.user := by
  obtain ⟨env, op⟩ := o
  cases op with
  | add a =>
    have h := ofUnit_done _ (h rfl)
    have := addMarshaller_ok env a s h
    simp only [cstep, this.2, eventsOf]
    rw [(update_frame env _).1]
    simp only [addLoop_ok _ _ this.1, foldl_add]
  | remove a =>
    simp only [cstep, removeMarshaller, eventsOf]
    rw [(update_frame env _).1]
    simp only [removeLoop_eq, foldl_remove]
  | clear =>
    simp only [cstep, clearMarshallers, eventsOf]
    rw [(update_frame env _).1]
    simp [applyEv]
  | get k =>
    simp only [cstep, eventsOf, List.foldl_nil]
    exact (lookup_frame env s k).2.2.2.2.1
  | load l => rfl

theorem crun_user (s : CState) (l : List (Env × COp)) (h : smooth l (crun s l).2) :
    (crun s l).1.coll.user = (l.flatMap (fun o => eventsOf o.2)).foldl applyEv s.coll.user := by
  induction l generalizing s with
  | nil => rfl
  | cons o r ih =>
    simp only [crun, smooth, List.flatMap_cons, List.foldl_append] at h ⊢
    rw [ih _ h.2, cstep_user s o h.1]

theorem addMarshaller_frame (env : Env) (a : MArg) (s : CState) :
    (addMarshaller env a s).1.coll.builtin = s.coll.builtin ∧ (addMarshaller env a s).1.coll.plugin = s.coll.plugin ∧
    (addMarshaller env a s).1.coll.priority = s.coll.priority := by
  simp only [addMarshaller]
  split
  · simp
  · exact (update_frame env _).2

theorem cstep_builtin (s : CState) (o : Env × COp) :
    (cstep s o).1.coll.builtin = s.coll.builtin ∧ (cstep s o).1.coll.plugin = s.coll.plugin ∧
    (cstep s o).1.coll.priority = s.coll.priority := by
  obtain ⟨env, op⟩ := o
  cases op with
  | add a => exact addMarshaller_frame env a s
  | remove a => exact (update_frame env _).2
  | clear => exact (update_frame env _).2
  | get k =>
    obtain ⟨_, h2, h3, h4, _⟩ := lookup_frame env s k
    exact ⟨h3, h4, h2⟩
  | load l => simp [cstep]

theorem crun_builtin (s : CState) (l : List (Env × COp)) :
    (crun s l).1.coll.builtin = s.coll.builtin ∧ (crun s l).1.coll.plugin = s.coll.plugin ∧
    (crun s l).1.coll.priority = s.coll.priority := by
  induction l generalizing s with
  | nil => simp [crun]
  | cons o r ih =>
    simp only [crun]
    have h1 := ih (cstep s o).1
    have h2 := cstep_builtin s o
    exact ⟨h1.1.trans h2.1, h1.2.1.trans h2.2.1, h1.2.2.trans h2.2.2⟩

/-! ### Module flags -/

/-- Flags are never wrongly set (holds after every history, raising calls included). -/
def ImpOk (s : CState) : Prop :=
  ∀ (i : Nat) (m : Marshaller), s.coll.marshallers[i]? = some m → s.coll.imported[i]? = some true → ∀ n ∈ m.requiredModules, n ∈ s.world

theorem update_impOk (env : Env) (s : CState) (h : ImpOk s) : ImpOk (updateMarshallers env s).1 := by
  unfold updateMarshallers
  split
  · exact h
  · rename_i ms hms
    simp only []
    split <;>
    · intro i m hm hi n hn
      exact scan_imported env s.coll.lazy ms s.world i m hm hi n hn

theorem lookupIndex_impOk (env : Env) (s : CState) (h : ImpOk s) (i : Nat) : ImpOk (lookupIndex env s i).1 := by
  unfold lookupIndex
  split
  · rename_i m im hs hm him hhs
    split
    · exact h
    · split
      · exact h
      · split
        · rename_i w b hb
          intro j m' hm' hj n hn
          simp only at hm' hj ⊢
          have hmono : n ∈ s.world → n ∈ w := by
            intro hw
            have := importModules_mono env m.requiredModules s.world n hw
            rw [hb] at this; exact this
          by_cases hij : i = j
          · subst hij
            rw [hm] at hm'; cases hm'
            rw [List.getElem?_set] at hj
            have hlt : i < s.coll.imported.length := by
              have := List.getElem?_eq_some_iff.mp him; exact this.1
            simp [hlt] at hj; subst hj
            have := importModules_true env m.requiredModules s.world (by rw [hb]) n hn
            rw [hb] at this; exact this
          · rw [List.getElem?_set_ne hij] at hj
            exact hmono (h j m' hm' hj n hn)
        · rename_i w e hb
          intro j m' hm' hj n hn
          have := importModules_mono env m.requiredModules s.world n (h j m' hm' hj n hn)
          rw [hb] at this; exact this
  · exact h

theorem lookup_impOk (env : Env) (s : CState) (h : ImpOk s) (k : Key) : ImpOk (lookup env k s).1 := by
  cases k <;> simp only [lookup, lookupIn] <;> split <;>
    first | exact lookupIndex_impOk env s h _ | exact h

theorem add_impOk (env : Env) (a : MArg) (s : CState) (h : ImpOk s) : ImpOk (addMarshaller env a s).1 := by
  simp only [addMarshaller]
  split
  · exact h
  · exact update_impOk env _ h

theorem cstep_impOk (s : CState) (o : Env × COp) (h : ImpOk s) : ImpOk (cstep s o).1 := by
  obtain ⟨env, op⟩ := o
  cases op with
  | add a => exact add_impOk env a s h
  | remove a => exact update_impOk env _ h
  | clear => exact update_impOk env _ h
  | get k => exact lookup_impOk env s h k
  | load l =>
    intro i m hm hi n hn
    have := h i m hm hi n hn
    simp [cstep, this]

theorem crun_impOk (s : CState) (l : List (Env × COp)) (h : ImpOk s) : ImpOk (crun s l).1 := by
  induction l generalizing s with
  | nil => exact h
  | cons o r ih => exact ih _ (cstep_impOk s o h)

/-- Every marshaller flagged as lacking modules has a reason, given the modules loaded and the environment of the last update and the
environments since. -/
def AbsOk (w0 : World) (env0 : Env) (envs : List Env) (s : CState) : Prop :=
  ∀ (i : Nat) (m : Marshaller), s.coll.marshallers[i]? = some m → s.coll.has[i]? = some false →
    (∃ n ∈ m.requiredParents, n ∉ w0 ∧ env0.find n = false) ∨
    (∃ n ∈ m.requiredModules, ∃ e ∈ env0 :: envs, (e.imp n).1 = .importError)

theorem update_absOk (env : Env) (s : CState) (h : (updateMarshallers env s).2 = .ok ()) :
    AbsOk s.world env [] (updateMarshallers env s).1 := by
  unfold updateMarshallers at h ⊢
  split at h
  · simp at h
  · rename_i ms hms
    simp only [] at h ⊢
    split at h
    · simp at h
    · rename_i he
      simp only []
      intro i m hm hi
      rcases scan_absent env s.coll.lazy ms s.world i m he hm hi with h | ⟨n, h1, _, h3⟩
      · exact Or.inl h
      · exact Or.inr ⟨n, h1, env, by simp, h3⟩

theorem AbsOk.weaken {w0 : World} {env0 : Env} {envs : List Env} {s : CState} (e : Env)
    (h : AbsOk w0 env0 envs s) : AbsOk w0 env0 (envs ++ [e]) s := by
  intro i m hm hi
  rcases h i m hm hi with h | ⟨n, h1, e', h2, h3⟩
  · exact Or.inl h
  · refine Or.inr ⟨n, h1, e', ?_, h3⟩
    rw [← List.cons_append]; exact List.mem_append_left _ h2

theorem lookupIndex_absOk {w0 : World} {env0 : Env} {envs : List Env} (env : Env) (s : CState)
    (h : AbsOk w0 env0 envs s) (j : Nat) : AbsOk w0 env0 (envs ++ [env]) (lookupIndex env s j).1 := by
  unfold lookupIndex
  split
  · rename_i m im hs hm him hhs
    split
    · exact h.weaken env
    · split
      · exact h.weaken env
      · split
        · rename_i w b hb
          intro i m' hm' hi
          simp only at hm' hi
          by_cases hij : j = i
          · subst hij
            rw [hm] at hm'; cases hm'
            have hlt : j < s.coll.has.length := (List.getElem?_eq_some_iff.mp hhs).1
            rw [List.getElem?_set] at hi
            simp [hlt] at hi; subst hi
            obtain ⟨n, h1, h2, h3⟩ := importModules_false env m.requiredModules s.world (by rw [hb])
            exact Or.inr ⟨n, h1, env, by simp, h3⟩
          · rw [List.getElem?_set_ne hij] at hi
            exact h.weaken env i m' hm' hi
        · exact h.weaken env
  · exact h.weaken env

theorem lookup_absOk {w0 : World} {env0 : Env} {envs : List Env} (env : Env) (s : CState)
    (h : AbsOk w0 env0 envs s) (k : Key) : AbsOk w0 env0 (envs ++ [env]) (lookup env k s).1 := by
  cases k <;> simp only [lookup, lookupIn] <;> split <;>
    first | exact lookupIndex_absOk env s h _ | exact h.weaken env

theorem crun_absOk {w0 : World} {env0 : Env} (l : List (Env × COp)) (envs : List Env) (s : CState)
    (h : AbsOk w0 env0 envs s) (hl : ∀ o ∈ l, isMut o.2 = false) :
    AbsOk w0 env0 (envs ++ l.map (·.1)) (crun s l).1 := by
  induction l generalizing envs s with
  | nil => simpa [crun] using h
  | cons o r ih =>
    obtain ⟨env, op⟩ := o
    have h1 : AbsOk w0 env0 (envs ++ [env]) (cstep s (env, op)).1 := by
      have := hl (env, op) (by simp)
      cases op with
      | get k => exact lookup_absOk env s h k
      | load l => exact h.weaken env
      | add a => simp [isMut] at this
      | remove a => simp [isMut] at this
      | clear => simp [isMut] at this
    have := ih _ _ h1 (fun o ho => hl o (by simp [ho]))
    simpa [crun] using this

/-- A lookup that answers `False` leaves the marshaller flagged. -/
theorem lookupIndex_false (env : Env) (s : CState) (i : Nat) (m : Marshaller)
    (h : (lookupIndex env s i).2 = .ok (some m, false)) :
    (lookupIndex env s i).1.coll.marshallers[i]? = some m ∧ (lookupIndex env s i).1.coll.has[i]? = some false := by
  unfold lookupIndex at h ⊢
  split at h
  · rename_i m' im hs hm him hhs
    split at h
    · simp at h
    · rename_i hni
      rw [if_neg hni]
      split at h
      · rename_i hnh
        rw [if_pos hnh]
        simp at h hnh; subst h; subst hnh
        exact ⟨hm, hhs⟩
      · rename_i hnh
        rw [if_neg hnh]
        split at h
        · rename_i w b hb
          simp at h
          obtain ⟨rfl, rfl⟩ := h
          simp only [hb]
          have hlt : i < s.coll.has.length := (List.getElem?_eq_some_iff.mp hhs).1
          exact ⟨hm, by rw [List.getElem?_set]; simp [hlt]⟩
        · simp at h
  · simp at h

theorem lookupIndex_true (env : Env) (s : CState) (hi : ImpOk s) (i : Nat) (m : Marshaller)
    (h : (lookupIndex env s i).2 = .ok (some m, true)) : ∀ n ∈ m.requiredModules, n ∈ (lookupIndex env s i).1.world := by
  have hk := lookupIndex_impOk env s hi i
  unfold lookupIndex at h ⊢
  split at h
  · rename_i m' im hs hm him hhs
    split at h
    · rename_i h0
      subst h0
      rw [if_pos rfl]
      simp at h; subst h
      exact hi i m' hm him
    · rename_i hni
      rw [if_neg hni]
      split at h
      · simp at h
      · rename_i hnh
        rw [if_neg hnh]
        split at h
        · rename_i w b hb
          simp at h
          obtain ⟨rfl, rfl⟩ := h
          simp only [hb]
          intro n hn
          have := importModules_true env m'.requiredModules s.world (by rw [hb]) n hn
          rw [hb] at this; exact this
        · simp at h
  · simp at h

/-! ### Sorting -/

theorem sLt_irrefl (a : Str) : strLt a a = false := by
  induction a with
  | nil => rfl
  | cons x r ih => simp [strLt, ih]

theorem sLt_total (a b : Str) : strLt a b = true ∨ a = b ∨ strLt b a = true := by
  induction a generalizing b with
  | nil => cases b <;> simp [strLt]
  | cons x r ih =>
    cases b with
    | nil => simp [strLt]
    | cons y t =>
      simp only [strLt]
      rcases Nat.lt_trichotomy x y with h | h | h
      · simp [h]
      · subst h
        rcases ih t with h | h | h <;> simp [h]
      · simp [h]

theorem sLt_trans (a b c : Str) (h1 : strLt a b = true) (h2 : strLt b c = true) : strLt a c = true := by
  induction a generalizing b c with
  | nil =>
    cases c with
    | nil => cases b <;> simp [strLt] at h2
    | cons z u => simp [strLt]
  | cons x r ih =>
    cases b with
    | nil => simp [strLt] at h1
    | cons y t =>
      cases c with
      | nil => simp [strLt] at h2
      | cons z u =>
        simp only [strLt, Bool.or_eq_true, Bool.and_eq_true, decide_eq_true_eq, beq_iff_eq] at h1 h2 ⊢
        rcases h1 with h1 | ⟨rfl, h1⟩
        · rcases h2 with h2 | ⟨rfl, h2⟩
          · left; omega
          · left; exact h1
        · rcases h2 with h2 | ⟨rfl, h2⟩
          · left; exact h2
          · right; exact ⟨rfl, ih _ _ h1 h2⟩

theorem insertStr_perm (a : Str) (l : List Str) : (insertStr a l).Perm (a :: l) := by
  induction l with
  | nil => exact List.Perm.refl _
  | cons b r ih =>
    simp only [insertStr]
    split
    · exact (ih.cons b).trans (List.Perm.swap a b r)
    · exact List.Perm.refl _

theorem sortStr_perm (l : List Str) : (sortStr l).Perm l := by
  induction l with
  | nil => exact List.Perm.refl _
  | cons a r ih => exact (insertStr_perm a _).trans (ih.cons a)

theorem strLe_trans (a b c : Str) (h1 : strLt b a = false) (h2 : strLt c b = false) : strLt c a = false := by
  cases h : strLt c a with
  | false => rfl
  | true =>
    rcases sLt_total b c with hbc | rfl | hcb
    · have := sLt_trans b c a hbc h; rw [h1] at this; exact this.symm
    · rw [h1] at h; exact h.symm
    · rw [h2] at hcb; exact hcb.symm

theorem insertStr_sorted (a : Str) (l : List Str) (h : l.Pairwise (fun a b => strLt b a = false)) :
    (insertStr a l).Pairwise (fun a b => strLt b a = false) := by
  induction l with
  | nil => simp [insertStr]
  | cons b r ih =>
    rw [List.pairwise_cons] at h
    simp only [insertStr]
    split
    · rename_i hba
      rw [List.pairwise_cons]
      refine ⟨?_, ih h.2⟩
      intro x hx
      rcases List.mem_cons.mp ((insertStr_perm a r).mem_iff.mp hx) with rfl | hx
      · cases hc : strLt x b with
        | false => rfl
        | true => have := sLt_trans x b x hc hba; rw [sLt_irrefl] at this; exact absurd this (by simp)
      · exact h.1 x hx
    · rename_i hba
      rw [List.pairwise_cons, List.pairwise_cons]
      have hba : strLt b a = false := by simpa using hba
      refine ⟨?_, h⟩
      intro x hx
      rcases List.mem_cons.mp hx with rfl | hx
      · exact hba
      · exact strLe_trans a b x hba (h.1 x hx)

theorem sortStr_sorted (l : List Str) : (sortStr l).Pairwise (fun a b => strLt b a = false) := by
  induction l with
  | nil => simp [sortStr]
  | cons a r ih => exact insertStr_sorted a _ ih

theorem sortStr_eq_iff (l1 l2 : List Str) : sortStr l1 = sortStr l2 ↔ l1.Perm l2 := by
  constructor
  · intro h
    have h1 := sortStr_perm l1
    rw [h] at h1
    exact h1.symm.trans (sortStr_perm l2)
  · intro h
    refine List.Perm.eq_of_pairwise ?_ (sortStr_sorted l1) (sortStr_sorted l2)
      ((sortStr_perm l1).trans (h.trans (sortStr_perm l2).symm))
    intro a b _ _ h1 h2
    rcases sLt_total a b with h | h | h
    · rw [h2] at h; exact absurd h (by simp)
    · exact h
    · rw [h1] at h; exact absurd h (by simp)

end HS
