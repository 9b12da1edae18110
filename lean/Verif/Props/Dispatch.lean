import Verif.Props.Collection
import Verif.Spec.Dispatch
/-
C48, C49, C53: the type tables, and the choice of the marshaller when reading and writing.
-/
namespace HS
open Spec

/-! ### Tables -/

theorem dictAt_set {α β : Type} [DecidableEq α] (k : α) (v : β) (d : List (α × β)) (k' : α) :
    dictAt (dictSet k v d) k' = if k' = k then some v else dictAt d k' := by
  induction d with
  | nil =>
    by_cases h : k = k'
    · subst h; simp [dictSet, dictAt]
    · simp [dictSet, dictAt, h, Ne.symm h]
  | cons p r ih =>
    obtain ⟨a, b⟩ := p
    simp only [dictSet]
    by_cases h : a = k
    · subst h
      rw [if_pos rfl]
      by_cases h' : k' = a
      · subst h'; simp [dictAt]
      · simp [dictAt, h', Ne.symm h']
    · rw [if_neg h]
      simp only [dictAt] at ih ⊢
      by_cases h' : a = k'
      · subst h'; simp [h]
      · simp only [List.find?_cons, h', decide_false]
        rw [ih]

theorem dictAt_foldl {α β : Type} [DecidableEq α] (l : List (α × β)) (d : List (α × β)) (k : α) (hk : k ∉ l.map (·.1)) :
    dictAt (l.foldl (fun d p => dictSet p.1 p.2 d) d) k = dictAt d k := by
  induction l generalizing d with
  | nil => rfl
  | cons p r ih =>
    simp only [List.map_cons, List.mem_cons, not_or] at hk
    rw [List.foldl_cons, ih _ hk.2, dictAt_set, if_neg hk.1]

theorem dictAt_zip {α β : Type} [DecidableEq α] (l : List (α × β)) (hn : (l.map (·.1)).Nodup) (d : List (α × β)) (k : α) (v : β) (hd : dictAt d k = none) :
    dictAt (l.foldl (fun d p => dictSet p.1 p.2 d) d) k = some v ↔ (k, v) ∈ l := by
  induction l generalizing d with
  | nil => simp [hd]
  | cons p r ih =>
    obtain ⟨a, b⟩ := p
    simp only [List.map_cons, List.nodup_cons] at hn
    rw [List.foldl_cons]
    by_cases h : k = a
    · subst h
      rw [dictAt_foldl _ _ _ hn.1, dictAt_set, if_pos rfl]
      constructor
      · intro h; cases h; simp
      · intro h
        rcases List.mem_cons.mp h with h | h
        · cases h; rfl
        · exact absurd (List.mem_map_of_mem (f := (·.1)) h) hn.1
    · rw [ih hn.2 _ (by rw [dictAt_set, if_neg h]; exact hd)]
      simp [h]

theorem zip_fst_map {α β : Type} (k : List α) (v : List β) (h : k.length = v.length) : (k.zip v).map (·.1) = k := by
  induction k generalizing v with
  | nil => rfl
  | cons a r ih =>
    cases v with
    | nil => simp at h
    | cons b s => simp only [List.zip_cons_cons, List.map_cons]; rw [ih s (by simpa using h)]

theorem zip_swap_mem {α β : Type} (k : List α) (v : List β) (a : α) (b : β) : (a, b) ∈ k.zip v ↔ (b, a) ∈ v.zip k := by
  induction k generalizing v with
  | nil => simp
  | cons x r ih =>
    cases v with
    | nil => simp
    | cons y s =>
      simp only [List.zip_cons_cons, List.mem_cons, ih s, Prod.mk.injEq]
      constructor
      · rintro (⟨rfl, rfl⟩ | h)
        · exact Or.inl ⟨rfl, rfl⟩
        · exact Or.inr h
      · rintro (⟨rfl, rfl⟩ | h)
        · exact Or.inl ⟨rfl, rfl⟩
        · exact Or.inr h

/-- C48, any marshaller. If a marshaller lists as many type strings as types and lists nothing twice, its two lookup tables are inverse to each other,
and every listed type has its type string. -/
theorem C48_tables_inverse (m : Marshaller) (hl : m.types.length = m.typeStrings.length) (ht : m.types.Nodup) (hs : m.typeStrings.Nodup) :
    (∀ t s, dictAt m.typeToString t = some s ↔ dictAt m.stringToType s = some t) ∧
    (∀ (i : Nat) t s, m.types[i]? = some t → m.typeStrings[i]? = some s →
      getTypeString m t none = .ok s ∧ dictAt m.stringToType s = some t) := by
  have h1 : ∀ t s, dictAt m.typeToString t = some s ↔ (t, s) ∈ m.types.zip m.typeStrings := fun t s =>
    dictAt_zip _ (by rw [zip_fst_map _ _ hl]; exact ht) [] t s rfl
  have h2 : ∀ t s, dictAt m.stringToType s = some t ↔ (s, t) ∈ m.typeStrings.zip m.types := fun t s =>
    dictAt_zip _ (by rw [zip_fst_map _ _ hl.symm]; exact hs) [] s t rfl
  have h3 : ∀ t s, dictAt m.typeToString t = some s ↔ dictAt m.stringToType s = some t := by
    intro t s; rw [h1, h2, zip_swap_mem]
  refine ⟨h3, ?_⟩
  intro i t s hit his
  have hm : (t, s) ∈ m.types.zip m.typeStrings := by
    refine List.mem_of_getElem? (i := i) ?_
    rw [List.getElem?_zip_eq_some]
    exact ⟨hit, his⟩
  have h4 := (h1 t s).mpr hm
  exact ⟨by simp only [getTypeString, h4], (h3 t s).mp h4⟩

example : ∃ m : Marshaller, m.types.length = m.typeStrings.length ∧ m.types.Nodup ∧ m.typeStrings.Nodup ∧ m.types ≠ [] :=
  ⟨Builtin.datetimeObjs.marshaller, by decide, by decide, by decide, by decide⟩

/-- C48. Every type listed by a builtin marshaller gets one of that marshaller's type strings, and that type string maps back to the type. -/
theorem C48_builtin_inverse (b : Builtin) (t : TypeRef) (ht : t ∈ b.types) :
    ∃ s, getTypeString b.marshaller t none = .ok s ∧ s ∈ b.strings ∧ dictAt b.marshaller.stringToType s = some t := by
  have key : ∀ b ∈ Builtin.all, ∀ t ∈ b.types, ∃ s ∈ b.strings,
      getTypeString b.marshaller t none = .ok s ∧ dictAt b.marshaller.stringToType s = some t := by decide +kernel
  obtain ⟨s, h1, h2, h3⟩ := key b (by cases b <;> decide) t ht
  exact ⟨s, h2, h1, h3⟩

/-- C48. Every type string listed by a builtin marshaller means one of its types, and every type string is claimed by one builtin marshaller only;
so is every type, and every MATLAB class. -/
theorem C48_builtin_unique (k : Key) (b b' : Builtin) (h : declares k b.marshaller = true) (h' : declares k b'.marshaller = true) : b = b' := by
  have ks : ∀ b ∈ Builtin.all, ∀ b' ∈ Builtin.all, ∀ s ∈ b.strings, b.marshaller.typeStrings.contains s = true → b'.marshaller.typeStrings.contains s = true → b = b' := by
    decide +kernel
  have kt : ∀ b ∈ Builtin.all, ∀ b' ∈ Builtin.all, ∀ t ∈ b.types, ∀ t' ∈ b'.types, dottedName t = dottedName t' → b = b' := by
    decide +kernel
  have ha : ∀ b : Builtin, b ∈ Builtin.all := by intro b; cases b <;> decide
  cases k with
  | typeString s =>
    have hm : s ∈ b.strings := by
      have h0 := h
      simp only [declares, List.contains_iff_mem] at h0
      exact h0
    exact ks b (ha b) b' (ha b') s hm h h'
  | type t =>
    simp only [declares, List.any_eq_true] at h h'
    obtain ⟨r, hr, h⟩ := h
    obtain ⟨r', hr', h'⟩ := h'
    simp only [beq_iff_eq] at h h'
    exact kt b (ha b) b' (ha b') r hr r' hr' (h.trans h'.symm)
  | matlabClass c =>
    simp only [declares, Builtin.marshaller] at h h'
    by_cases e : b = .numpyScalarArray
    · by_cases e' : b' = .numpyScalarArray
      · rw [e, e']
      · rw [if_neg e'] at h'; simp at h'
    · rw [if_neg e] at h; simp at h

/-- C48. Every type string of a builtin marshaller maps to a type it lists. -/
theorem C48_builtin_strings (b : Builtin) (s : Str) (hs : s ∈ b.strings) : ∃ t ∈ b.types, dictAt b.marshaller.stringToType s = some t := by
  have key : ∀ b ∈ Builtin.all, ∀ s ∈ b.strings, ∃ t ∈ b.types, dictAt b.marshaller.stringToType s = some t := by decide +kernel
  exact key b (by cases b <;> decide) s hs

/-- C48. The marshaller a value is written with is a builtin one that stores the type string `tsOf` of the model of writing, and it is the only one that
declares that type string. -/
theorem C48_values (v : Val) (t : TypeRef) (hv : classOf v = some t) :
    ∃ b : Builtin, declares (.type t) b.marshaller = true ∧ getTypeString b.marshaller t none = .ok (tsOf v) ∧
      declares (.typeString (tsOf v)) b.marshaller = true := by
  cases v with
  | none => (cases hv; exact ⟨.noneEllipsis, rfl, rfl, rfl⟩)
  | ellipsis => (cases hv; exact ⟨.noneEllipsis, rfl, rfl, rfl⟩)
  | notImplemented => (cases hv; exact ⟨.noneEllipsis, rfl, rfl, rfl⟩)
  | bool => (cases hv; exact ⟨.scalar, rfl, rfl, rfl⟩)
  | int => (cases hv; exact ⟨.scalar, rfl, rfl, rfl⟩)
  | float => (cases hv; exact ⟨.scalar, rfl, rfl, rfl⟩)
  | complex => (cases hv; exact ⟨.scalar, rfl, rfl, rfl⟩)
  | str => (cases hv; exact ⟨.string, rfl, rfl, rfl⟩)
  | bytes => (cases hv; exact ⟨.string, rfl, rfl, rfl⟩)
  | bytearray => (cases hv; exact ⟨.string, rfl, rfl, rfl⟩)
  | np c a =>
    cases c with
    | scalar =>
      obtain ⟨dt, sh, da⟩ := a
      cases dt <;> (cases hv; exact ⟨.numpyScalarArray, rfl, rfl, rfl⟩)
    | _ => (cases hv; exact ⟨.numpyScalarArray, rfl, rfl, rfl⟩)
  | npObj c s e =>
    cases c <;> (cases hv; exact ⟨.numpyScalarArray, rfl, rfl, rfl⟩)
  | npStruct c s n t e =>
    cases c <;> (cases hv; exact ⟨.numpyScalarArray, rfl, rfl, rfl⟩)
  | seq k e =>
    cases k with
    | list => (cases hv; exact ⟨.list, rfl, rfl, rfl⟩)
    | chainMap => (cases hv; exact ⟨.chainMap, rfl, rfl, rfl⟩)
    | _ => (cases hv; exact ⟨.tupleSetDeque, rfl, rfl, rfl⟩)
  | dict k a b =>
    cases k with
    | counter => (cases hv; exact ⟨.counter, rfl, rfl, rfl⟩)
    | _ => (cases hv; exact ⟨.dict, rfl, rfl, rfl⟩)
  | record k a =>
    cases k with
    | slice => (cases hv; exact ⟨.sliceRange, rfl, rfl, rfl⟩)
    | range => (cases hv; exact ⟨.sliceRange, rfl, rfl, rfl⟩)
    | fraction => (cases hv; exact ⟨.fraction, rfl, rfl, rfl⟩)
    | _ => (cases hv; exact ⟨.datetimeObjs, rfl, rfl, rfl⟩)
  | dtypeObj => (cases hv; exact ⟨.numpyDtype, rfl, rfl, rfl⟩)
  | other => cases hv

example : classOf (.record .fraction [.int 1, .int 2]) = some (.cls p!"fractions" p!"Fraction") := rfl

/-! ### The choice -/

theorem ranked_builtin {prio : List Str} {b p u : List Marshaller} {m : Marshaller} (hp : p!"builtin" ∈ prio) (hm : m ∈ b) : m ∈ ranked prio b p u := by
  simp only [ranked, List.mem_flatMap]
  exact ⟨_, hp, by simp [hm]⟩

theorem ranked_mem {prio : List Str} {b p u : List Marshaller} {m : Marshaller} (hm : m ∈ ranked prio b p u) : m ∈ b ∨ m ∈ p ∨ m ∈ u := by
  simp only [ranked, List.mem_flatMap] at hm
  obtain ⟨v, _, h⟩ := hm
  split at h
  · exact .inl h
  · split at h
    · exact .inr (.inl h)
    · split at h
      · exact .inr (.inr h)
      · simp at h

theorem prio_builtin {env : Env} {b : List Marshaller} {eps : List EntryPoint} {w : World} {load lazy : Bool}
    {prio : List Str} {u : MArg} {s0 : CState} (h : newCollection env b eps w load lazy prio u = (s0, .ok ())) : p!"builtin" ∈ prio := by
  simp only [newCollection] at h
  split at h
  · simp at h
  · split at h
    · simp at h
    · rename_i h2
      have h3 := (sortStr_eq_iff _ _).mp (Decidable.not_not.mp h2)
      exact h3.mem_iff.mpr (by simp)

/-- A lookup that finds nothing changes nothing. -/
theorem lookup_none {env : Env} {k : Key} {s : CState} {b : Bool} (h : (lookup env k s).2 = .ok (none, b)) : (lookup env k s).1 = s := by
  have hx : ∀ i, (lookupIndex env s i).2 ≠ .ok (none, b) := by
    intro i h
    unfold lookupIndex at h
    split at h
    · split at h
      · simp at h
      · split at h
        · simp at h
        · split at h <;> simp at h
    · simp at h
  have key : ∀ d x, (lookupIn d x env s).2 = .ok (none, b) → (lookupIn d x env s).1 = s := by
    intro d x h
    simp only [lookupIn] at h ⊢
    split at h
    · exact absurd h (hx _)
    · rename_i h1
      simp only [h1]
  cases k <;> exact key _ _ h

/-- The two ways the choice is made. -/
theorem dispatchRead_eq (env : Env) (ts mc : Option Str) (kind : DKind) (s : CState) :
    (∃ m b, (lookup env (recognisedBy ts mc kind) s).2 = .ok (some m, b) ∧
      dispatchRead env ts mc kind s = ((lookup env (recognisedBy ts mc kind) s).1, readCall (some m, b))) ∨
    (∃ e, (lookup env (recognisedBy ts mc kind) s).2 = .error e ∧ (dispatchRead env ts mc kind s).2 = .raises e) ∨
    (∃ b, (lookup env (recognisedBy ts mc kind) s).2 = .ok (none, b) ∧
      ((∃ r, (lookup env (.type npUint8) s).2 = .ok r ∧ dispatchRead env ts mc kind s = ((lookup env (.type npUint8) s).1, readCall r)) ∨
       (∃ e, (lookup env (.type npUint8) s).2 = .error e ∧ (dispatchRead env ts mc kind s).2 = .raises e))) := by
  have hk : readKey ts mc kind = recognisedBy ts mc kind := by
    cases ts with
    | some t => rfl
    | none =>
      cases mc with
      | some c => rfl
      | none => cases kind <;> rfl
  unfold dispatchRead
  rw [hk]
  generalize hl : lookup env (recognisedBy ts mc kind) s = r
  obtain ⟨s1, o⟩ := r
  cases o with
  | error e => exact .inr (.inl ⟨e, rfl, rfl⟩)
  | ok q =>
    obtain ⟨om, b⟩ := q
    cases om with
    | some m => exact .inl ⟨m, b, rfl, rfl⟩
    | none =>
      refine .inr (.inr ⟨b, rfl, ?_⟩)
      have h1 : s1 = s := by
        have := lookup_none (env := env) (k := recognisedBy ts mc kind) (s := s) (b := b) (by rw [hl])
        rw [hl] at this; exact this
      subst h1
      dsimp only
      generalize lookup env (.type npUint8) s1 = r2
      obtain ⟨s2, o2⟩ := r2
      cases o2 with
      | error e => exact .inr ⟨e, rfl, rfl⟩
      | ok r => exact .inl ⟨r, rfl, rfl⟩

/-- C49. After construction and any history of calls on the collection none of whose changing calls raised: `read_data` calls `read` or `read_approximate`
of the marshaller chosen by `chosenReader` among all, highest priority first; `read` only with all required modules imported; it raises `CantReadError` exactly if there is no such
marshaller; anything else it raises was raised by the import of a module that marshaller requires. -/
theorem C49_dispatch (env0 : Env) (b : List Marshaller) (eps : List EntryPoint) (w : World) (load lazy : Bool)
    (prio : List Str) (u : MArg) (s0 : CState) (h0 : newCollection env0 b eps w load lazy prio u = (s0, .ok ()))
    (ops : List (Env × COp)) (hs : smooth ops (crun s0 ops).2) (env : Env) (ts mc : Option Str) (kind : DKind) :
    let s := (crun s0 ops).1
    let best := chosenReader (ranked prio b (loadPlugins load eps) s.coll.user) ts mc kind
    let after := dispatchRead env ts mc kind s
    match after.2 with
    | .read m => best = some m ∧ ∀ n ∈ m.requiredModules, n ∈ after.1.world
    | .readApproximate m => best = some m
    | .write _ => False
    | .raises e => (best = none ∧ e = .cantRead) ∨ (e = .other ∧ ∃ m, best = some m ∧ ∃ n ∈ m.requiredModules, (env.imp n).1 = .otherError) := by
  intro s best after
  have hu : (declares (.type npUint8) : Marshaller → Bool) = declares (.type (.str p!"numpy.uint8")) := by
    funext m; rfl
  have L := C11_priority_lookup env0 b eps w load lazy prio u s0 h0 ops hs env
  have T := C13_true_is_truthful env0 b eps w load lazy prio u s0 h0 ops env
  have h1 := L (recognisedBy ts mc kind)
  have h2 := L (.type npUint8)
  dsimp only at h1 h2
  rw [hu] at h2
  rcases dispatchRead_eq env ts mc kind s with ⟨m, f, hl, he⟩ | ⟨e, hl, he⟩ | ⟨f, hl, h3⟩
  · rw [hl] at h1
    dsimp only at h1
    have hb : best = some m := by simp only [best, chosenReader, s, ← h1.1]
    have ha : after = ((lookup env (recognisedBy ts mc kind) s).1, readCall (some m, f)) := he
    rw [ha]
    cases f with
    | true => exact ⟨hb, T _ m hl⟩
    | false => exact hb
  · rw [hl] at h1
    dsimp only at h1
    obtain ⟨h1, m, hm, hn⟩ := h1
    have ha : after.2 = .raises e := he
    rw [ha]
    exact .inr ⟨h1, m, by simp only [best, chosenReader, s, hm], hn⟩
  · rw [hl] at h1
    dsimp only at h1
    have hb : best = (ranked prio b (loadPlugins load eps) s.coll.user).find? (declares (.type (.str p!"numpy.uint8"))) := by
      simp only [best, chosenReader, s, ← h1.1]
    rcases h3 with ⟨r, hl2, he⟩ | ⟨e, hl2, he⟩
    · rw [hl2] at h2
      obtain ⟨om, f2⟩ := r
      dsimp only at h2
      have ha : after = ((lookup env (.type npUint8) s).1, readCall (om, f2)) := he
      rw [ha]
      cases om with
      | none => exact .inl ⟨by rw [hb]; exact h2.1.symm, rfl⟩
      | some m =>
        cases f2 with
        | true => exact ⟨by rw [hb]; exact h2.1.symm, T _ m hl2⟩
        | false => exact (by rw [hb]; exact h2.1.symm : best = some m)
    · rw [hl2] at h2
      dsimp only at h2
      have ha : after.2 = .raises e := he
      rw [ha]
      obtain ⟨h2, m, hm, hn⟩ := h2
      exact .inr ⟨h2, m, by rw [hb]; exact hm, hn⟩

/-- C49. `read_approximate` is called only if a module the marshaller requires was missing: a required parent module was neither loaded nor findable at the last change of
the collection, or an import of a required module failed with `ImportError` then or since. -/
theorem C49_approximate (s : CState) (env0 : Env) (op : COp) (hop : isMut op = true)
    (h0 : (cstep s (env0, op)).2 = .done) (ops : List (Env × COp)) (hops : ∀ o ∈ ops, isMut o.2 = false)
    (env : Env) (ts mc : Option Str) (kind : DKind) (m : Marshaller)
    (h : (dispatchRead env ts mc kind (crun (cstep s (env0, op)).1 ops).1).2 = .readApproximate m) :
    (∃ n ∈ m.requiredParents, n ∉ s.world ∧ env0.find n = false) ∨
    (∃ n ∈ m.requiredModules, ∃ e ∈ env0 :: (ops.map (·.1) ++ [env]), (e.imp n).1 = .importError) := by
  have F := C13_false_is_justified s env0 op hop h0 ops hops env
  generalize (crun (cstep s (env0, op)).1 ops).1 = t at h F
  rcases dispatchRead_eq env ts mc kind t with ⟨m', f, hl, he⟩ | ⟨e, hl, he⟩ | ⟨f, hl, ⟨r, hl2, he⟩ | ⟨e, hl2, he⟩⟩
  · rw [he] at h
    cases f with
    | true => cases h
    | false => cases h; exact F _ m hl
  · rw [he] at h; cases h
  · rw [he] at h
    obtain ⟨om, f2⟩ := r
    cases om with
    | none => cases h
    | some m' =>
      cases f2 with
      | true => cases h
      | false => cases h; exact F _ m hl2
  · rw [he] at h; cases h

/-- C53. `write_data` calls `write` of the first marshaller declaring the class of the data by its exact name (no base classes are looked at), with all modules it requires
imported; it raises `NotImplementedError` if there is no such marshaller or modules it requires are missing. -/
theorem C53_write_dispatch (env0 : Env) (b : List Marshaller) (eps : List EntryPoint) (w : World) (load lazy : Bool)
    (prio : List Str) (u : MArg) (s0 : CState) (h0 : newCollection env0 b eps w load lazy prio u = (s0, .ok ()))
    (ops : List (Env × COp)) (hs : smooth ops (crun s0 ops).2) (env : Env) (tp : TypeRef) :
    let s := (crun s0 ops).1
    let best := (ranked prio b (loadPlugins load eps) s.coll.user).find? (declares (.type tp))
    let after := dispatchWrite env tp s
    match after.2 with
    | .write m => best = some m ∧ ∀ n ∈ m.requiredModules, n ∈ after.1.world
    | .raises e => (e = .notImplemented ∧ (best = none ∨ ∃ m, best = some m ∧ (lookup env (.type tp) s).2 = .ok (some m, false))) ∨
        (e = .other ∧ ∃ m, best = some m ∧ ∃ n ∈ m.requiredModules, (env.imp n).1 = .otherError)
    | _ => False := by
  intro s best after
  have h1 := C11_priority_lookup env0 b eps w load lazy prio u s0 h0 ops hs env (.type tp)
  have T := C13_true_is_truthful env0 b eps w load lazy prio u s0 h0 ops env (.type tp)
  dsimp only at h1
  have ha : after = dispatchWrite env tp s := rfl
  unfold dispatchWrite at ha
  change (match (lookup env (.type tp) s).2 with
    | .ok (m, flag) => m = best ∧ (m = none → flag = false)
    | .error e => e = .other ∧ ∃ m, best = some m ∧ ∃ n ∈ m.requiredModules, (env.imp n).1 = .otherError) at h1
  generalize hl : lookup env (.type tp) s = r at h1 ha
  have hl2 : lookup env (.type tp) (crun s0 ops).1 = r := hl
  rw [hl2] at T
  obtain ⟨s1, o⟩ := r
  cases o with
  | error e =>
    dsimp only at ha h1
    rw [ha]
    exact .inr h1
  | ok q =>
    obtain ⟨om, f⟩ := q
    dsimp only at h1
    cases om with
    | none =>
      dsimp only at ha
      rw [ha]
      exact .inl ⟨rfl, .inl h1.1.symm⟩
    | some m =>
      cases f with
      | true =>
        dsimp only at ha
        rw [ha]
        exact ⟨h1.1.symm, T m rfl⟩
      | false =>
        dsimp only at ha
        rw [ha]
        exact .inl ⟨rfl, .inr ⟨m, h1.1.symm, rfl⟩⟩

/-! ### The builtin marshallers -/

theorem mem_builtins {m : Marshaller} : m ∈ builtins ↔ ∃ b : Builtin, b.marshaller = m := by
  constructor
  · intro h
    obtain ⟨b, _, h⟩ := List.mem_map.mp h
    exact ⟨b, h⟩
  · rintro ⟨b, rfl⟩
    exact List.mem_map_of_mem (by cases b <;> decide)

theorem marshaller_inj {b b' : Builtin} (h : b.marshaller = b'.marshaller) : b = b' := by
  have h1 : Builtin.all.idxOf b = Builtin.all.idxOf b' := congrArg Marshaller.id h
  revert h1
  cases b <;> cases b' <;> decide

/-- C48. In any collection with the builtin marshallers, whatever the plugins, the user marshallers, the priority and the history: if no plugin or user marshaller
declares the class of a value or its type string, both lookups find the same marshaller, a builtin one that gives the value this type string. -/
theorem C48_collection (env0 : Env) (eps : List EntryPoint) (w : World) (load lazy : Bool)
    (prio : List Str) (u : MArg) (s0 : CState) (h0 : newCollection env0 builtins eps w load lazy prio u = (s0, .ok ()))
    (ops : List (Env × COp)) (hs : smooth ops (crun s0 ops).2) (v : Val) (t : TypeRef) (hv : classOf v = some t)
    (hf : ∀ m, m ∈ loadPlugins load eps ∨ m ∈ (crun s0 ops).1.coll.user → declares (.type t) m = false ∧ declares (.typeString (tsOf v)) m = false) :
    let l := ranked prio builtins (loadPlugins load eps) (crun s0 ops).1.coll.user
    ∃ m ∈ builtins, l.find? (declares (.type t)) = some m ∧ l.find? (declares (.typeString (tsOf v))) = some m ∧ getTypeString m t none = .ok (tsOf v) := by
  intro l
  obtain ⟨b, h1, h2, h3⟩ := C48_values v t hv
  have hmem : b.marshaller ∈ l := ranked_builtin (prio_builtin h0) (mem_builtins.mpr ⟨b, rfl⟩)
  have key : ∀ k, declares k b.marshaller = true → (∀ m, m ∈ loadPlugins load eps ∨ m ∈ (crun s0 ops).1.coll.user → declares k m = false) →
      l.find? (declares k) = some b.marshaller := by
    intro k hk hno
    cases hfi : l.find? (declares k) with
    | none => exact absurd hk (by simpa using List.find?_eq_none.mp hfi _ hmem)
    | some m =>
      have hd := List.find?_some hfi
      rcases ranked_mem (List.mem_of_find?_eq_some hfi) with h | h | h
      · obtain ⟨b', rfl⟩ := mem_builtins.mp h
        rw [C48_builtin_unique k b b' hk hd]
      · rw [hno m (.inl h)] at hd; cases hd
      · rw [hno m (.inr h)] at hd; cases hd
  exact ⟨b.marshaller, mem_builtins.mpr ⟨b, rfl⟩, key _ h1 fun m hm => (hf m hm).1, key _ h3 fun m hm => (hf m hm).2, h2⟩

theorem declares_np {n : Str} {b : Builtin} (hn : n ≠ p!"dtype") (h : declares (.type (.cls p!"numpy" n)) b.marshaller = true) : b = .numpyScalarArray := by
  simp only [declares, List.any_eq_true, beq_iff_eq] at h
  obtain ⟨r, hr, h⟩ := h
  have key : ∀ b ∈ Builtin.all, ∀ r ∈ b.types, b = .numpyScalarArray ∨ dottedName r = p!"numpy.dtype" ∨ (dottedName r).take 6 ≠ p!"numpy." := by
    decide +kernel
  rcases key b (by cases b <;> decide) r hr with h1 | h1 | h1
  · exact h1
  · rw [h1] at h
    simp only [dottedName, List.cons_append, List.nil_append, List.cons.injEq, true_and] at h
    exact absurd h.symm hn
  · rw [h] at h1
    exact absurd rfl h1

theorem declares_struct {c : Str} {b : Builtin} (h : declares (.matlabClass c) b.marshaller = true) : b = .numpyScalarArray := by
  by_cases e : b = .numpyScalarArray
  · exact e
  · simp only [declares, Builtin.marshaller, if_neg e] at h
    simp at h

/-- What the builtin `read` methods do is what the model of reading does. -/
theorem readTyped_declared (mu : Nat → Bool) (rd : Rd) (o : COpts) (excl : Option Nat) (ob : Obj) (ts : Str) (b : Builtin) (h : ts ∈ b.strings) :
    readTyped mu rd o excl ob ts = b.read mu rd o excl ob (some ts) := by
  cases b <;> simp only [Builtin.strings, npStrings, List.mem_cons, List.not_mem_nil, or_false] at h
  all_goals
    repeat' (rcases h with h | h)
    all_goals rfl

theorem readTyped_undeclared (mu : Nat → Bool) (rd : Rd) (o : COpts) (excl : Option Nat) (ob : Obj) (ts : Str) (h : ∀ b : Builtin, ts ∉ b.strings) :
    readTyped mu rd o excl ob ts = readNp mu rd o excl ob := by
  have n (b : Builtin) (s : Str) (hs : s ∈ b.strings) : ts ≠ s := fun e => h b (e ▸ hs)
  have n1 := n .noneEllipsis
  have n2 := n .scalar
  have n3 := n .string
  have n4 := n .numpyDtype
  have n5 := n .list
  have n6 := n .tupleSetDeque
  have n7 := n .chainMap
  have n8 := n .dict
  have n9 := n .counter
  have n10 := n .sliceRange
  have n11 := n .datetimeObjs
  have n12 := n .fraction
  simp only [Builtin.strings, List.mem_cons, List.not_mem_nil, or_false, forall_eq_or_imp, forall_eq] at n1 n2 n3 n4 n5 n6 n7 n8 n9 n10 n11 n12
  have hs : seqKindOf ts = none := by simp [seqKindOf, aget, Ne.symm n5, Ne.symm n6.1, Ne.symm n6.2.1, Ne.symm n6.2.2.1, Ne.symm n6.2.2.2, Ne.symm n7]
  have hd : dictKindOf ts = none := by simp [dictKindOf, aget, Ne.symm n8.1, Ne.symm n8.2, Ne.symm n9]
  have hr : recKindOf ts = none := by
    simp [recKindOf, aget, Ne.symm n10.1, Ne.symm n10.2, Ne.symm n11.1, Ne.symm n11.2.1, Ne.symm n11.2.2.1, Ne.symm n11.2.2.2.1, Ne.symm n11.2.2.2.2, Ne.symm n12]
  unfold readTyped
  rw [if_neg n1.1, if_neg n1.2.1, if_neg n1.2.2, if_neg, if_neg, if_neg n4, hs, hd, hr]
  · simp [n3]
  · simp [n2]

/-- C49. With the builtin marshallers in the collection (any plugins, user marshallers, priority and history): whenever `read_data` calls `read` of a builtin
marshaller, that is what the model of reading `readData` does with the object. -/
theorem C49_builtin_read (env0 : Env) (eps : List EntryPoint) (w : World) (load lazy : Bool)
    (prio : List Str) (u : MArg) (s0 : CState) (h0 : newCollection env0 builtins eps w load lazy prio u = (s0, .ok ()))
    (ops : List (Env × COp)) (hs : smooth ops (crun s0 ops).2) (env : Env)
    (o : COpts) (V : View) (excl : Option Nat) (n p : Nat) (ob : Obj) (hV : V p = some ob) (ts mc : Option Str) (kind : DKind)
    (hts : attrToString (aget ob.attrs p!"Python.Type") = .ok ts) (hmc : attrToString (aget ob.attrs p!"MATLAB_class") = .ok mc) (hk : KindOf ob kind)
    (b : Builtin) (hc : (dispatchRead env ts mc kind (crun s0 ops).1).2 = .read b.marshaller) :
    readData o V excl (n + 1) p = b.read (looksMulti V) (readData o V excl n) o excl ob ts := by
  have hd := C49_dispatch env0 builtins eps w load lazy prio u s0 h0 ops hs env ts mc kind
  dsimp only at hd
  rw [hc] at hd
  have hbest := hd.1
  clear hd hc
  have hmem : ∀ b' : Builtin, b'.marshaller ∈ ranked prio builtins (loadPlugins load eps) (crun s0 ops).1.coll.user := fun b' =>
    ranked_builtin (prio_builtin h0) (mem_builtins.mpr ⟨b', rfl⟩)
  generalize ranked prio builtins (loadPlugins load eps) (crun s0 ops).1.coll.user = l at hbest hmem
  have hu : declares (.type (.str p!"numpy.uint8")) b.marshaller = true → b = .numpyScalarArray := by
    intro h
    exact declares_np (n := p!"uint8") (by decide) h
  simp only [readData, hV, hts, hmc]
  change (match ts with
    | none => readNp (looksMulti V) (readData o V excl n) o excl ob
    | some ts => readTyped (looksMulti V) (readData o V excl n) o excl ob ts) = _
  simp only [chosenReader] at hbest
  cases ts with
  | none =>
    dsimp only
    have hb : b = .numpyScalarArray := by
      split at hbest
      · rename_i m hf
        cases hbest
        have hd := List.find?_some hf
        cases mc with
        | some c => exact declares_struct hd
        | none =>
          cases kind with
          | group => exact declares_struct hd
          | dset tp =>
            obtain ⟨_, n', hn, rfl⟩ := hk
            exact declares_np hn hd
      · exact hu (List.find?_some hbest)
    subst hb
    rfl
  | some t =>
    dsimp only
    split at hbest
    · rename_i m hf
      cases hbest
      have hd : declares (.typeString t) b.marshaller = true := List.find?_some hf
      refine readTyped_declared _ _ _ _ _ _ _ ?_
      simp only [declares, List.contains_iff_mem] at hd
      exact hd
    · rename_i hf
      have hb := hu (List.find?_some hbest)
      subst hb
      refine readTyped_undeclared _ _ _ _ _ _ ?_
      intro b' hb'
      have := List.find?_eq_none.mp hf _ (hmem b')
      exact this (by simp only [recognisedBy, declares, List.contains_iff_mem]; exact hb')

/-! ### Cases that meet the hypotheses -/

/-- `fractions` can be found and imported. -/
def exCollEnv : Env := ⟨fun _ => true, fun _ => (.ok, [])⟩
/-- `fractions` cannot be found. -/
def exCollEnvBare : Env := ⟨fun _ => false, fun _ => (.importError, [])⟩
/-- A user marshaller that takes over dicts and the MATLAB class `cell`. -/
def exUser : Marshaller := ⟨100, [pyCls p!"dict", .str p!"mine.Thing"], [p!"dict", p!"thing"], [p!"cell"], [], []⟩

example : exUser.types.length = exUser.typeStrings.length ∧ exUser.types.Nodup ∧ exUser.typeStrings.Nodup := by decide

/-- The collection with all builtins, the user marshaller having priority. -/
def exColl : CState := (newCollection exCollEnv builtins [] [] false true [p!"user", p!"plugin", p!"builtin"] (.single (.m exUser))).1
theorem exColl_ok : newCollection exCollEnv builtins [] [] false true [p!"user", p!"plugin", p!"builtin"] (.single (.m exUser)) = (exColl, .ok ()) := by
  have h : (newCollection exCollEnv builtins [] [] false true [p!"user", p!"plugin", p!"builtin"] (.single (.m exUser))).2 = .ok () := by decide +kernel
  rw [← h]; rfl

-- By type string; `cell` goes to the user's marshaller unless there is a type string; a Group without metadata falls back; so does an unknown type string.
example : (dispatchRead exCollEnv (some p!"fractions.Fraction") (some p!"struct") .group exColl).2 = .read Builtin.fraction.marshaller ∧
    (dispatchRead exCollEnv none (some p!"cell") (.dset (npCls p!"object_")) exColl).2 = .read exUser ∧
    (dispatchRead exCollEnv (some p!"list") (some p!"cell") (.dset (npCls p!"object_")) exColl).2 = .read Builtin.list.marshaller ∧
    (dispatchRead exCollEnv none none .group exColl).2 = .read Builtin.numpyScalarArray.marshaller ∧
    (dispatchRead exCollEnv (some p!"nothing") none .group exColl).2 = .read Builtin.numpyScalarArray.marshaller ∧
    (dispatchRead exCollEnv none none (.dset (npCls p!"float64")) exColl).2 = .read Builtin.numpyScalarArray.marshaller := by decide +kernel
-- Without the module the Fraction is read approximately, and not written.
example : (dispatchRead exCollEnvBare (some p!"fractions.Fraction") none .group exColl).2 = .readApproximate Builtin.fraction.marshaller ∧
    (dispatchWrite exCollEnvBare (.cls p!"fractions" p!"Fraction") exColl).2 = .raises .notImplemented ∧
    (dispatchWrite exCollEnv (.cls p!"fractions" p!"Fraction") exColl).2 = .write Builtin.fraction.marshaller ∧
    (dispatchWrite exCollEnv (.cls p!"mine" p!"Subclass") exColl).2 = .raises .notImplemented ∧
    (dispatchWrite exCollEnv (.cls p!"mine" p!"Thing") exColl).2 = .write exUser := by decide +kernel
-- The hypotheses of C49_approximate: the change of the collection is the addition of a marshaller.
example : ∃ s : CState, (cstep s (exCollEnvBare, .add (.single (.m exUser)))).2 = .done ∧
    (dispatchRead exCollEnv (some p!"fractions.Fraction") none .group (crun (cstep s (exCollEnvBare, .add (.single (.m exUser)))).1 []).1).2 =
      .readApproximate Builtin.fraction.marshaller := by
  exact ⟨exColl, by decide +kernel, by decide +kernel⟩
-- The hypotheses of C48_collection hold of a list, and of C49_builtin_read of a Dataset that has no attributes.
example : (∀ m, m ∈ loadPlugins false [] ∨ m ∈ (crun exColl []).1.coll.user →
      declares (.type (pyCls p!"list")) m = false ∧ declares (.typeString (tsOf (.seq .list [.int 3]))) m = false) ∧
    classOf (.seq .list [.int 3]) = some (pyCls p!"list") ∧ smooth [] (crun exColl []).2 := by
  refine ⟨?_, rfl, trivial⟩
  have h : (crun exColl []).1.coll.user = [exUser] := by decide +kernel
  rw [h]
  intro m hm
  rcases hm with hm | hm
  · cases hm
  · obtain rfl := List.mem_singleton.mp hm
    decide +kernel
example : KindOf ⟨[], .dset ⟨.u8, [2], [.num 1, .num 2]⟩ ⟨none, some none, false, false, false⟩⟩ (.dset (npCls p!"uint8")) ∧
    attrToString (aget ([] : List (Str × AVal)) p!"Python.Type") = .ok none :=
  ⟨⟨nofun, p!"uint8", by decide, rfl⟩, rfl⟩

end HS
